import Verif.Props.RoundedMargin
import Verif.Props.RoundingExamples
import Verif.Proofs.Binary64Eval
import Verif.Proofs.OneStep

/-!
# C65: SUCCESS at an infeasible point, in IEEE arithmetic
-/

namespace Fbstab
open Binary64

section

/-- The norm of `(a, -, c)` as the code computes it. -/
noncomputable def nrm2 (a c : Binary64) : Binary64 :=
  Scalar.sqrt (Scalar.sqrt (0 + a * a) * Scalar.sqrt (0 + a * a) + Scalar.sqrt 0 * Scalar.sqrt 0 +
    Scalar.sqrt (0 + c * c) * Scalar.sqrt (0 + c * c))

/-- The gradient of the Lagrangian of a scalar problem as the code computes it. -/
noncomputable def grad1 (H f A z v : Binary64) : Binary64 := (0 + (1 * A) * v) + 1 * (0 + 1 * ((0 + (1 * H) * z) + 1 * (0 + 1 * f)))

variable (E : Core.Env Binary64 1 0 1) (d : DenseData Binary64 1 0 1) (hE : E.ops = d.ops)
include hE

theorem penRes1 (x : Point Binary64 1 0 1) : Core.Resid.norm (E.penRes x) =
    nrm2 (grad1 (d.H 0 0) (d.f 0) (d.A 0 0) (x.z 0) (x.v 0))
      (E.opts.alpha * cmin (x.y 0) (x.v 0) + (1 - E.opts.alpha) * cmax 0 (x.y 0) * cmax 0 (x.v 0)) := by
  unfold Core.Env.penRes
  rw [hE]
  rfl

theorem innerRes1 (x xbar : Point Binary64 1 0 1) (sigma : Binary64) : Core.Resid.norm (E.innerRes x xbar sigma) =
    nrm2 (grad1 (d.H 0 0) (d.f 0) (d.A 0 0) (x.z 0) (x.v 0) + sigma * (x.z 0 - xbar.z 0))
      (pfb (x.y 0 + sigma * (x.v 0 - xbar.v 0)) (x.v 0) E.opts.alpha) := by
  unfold Core.Env.innerRes
  rw [hE]
  rfl

theorem innerRes1_z (x xbar : Point Binary64 1 0 1) (sigma : Binary64) : (E.innerRes x xbar sigma).z 0 =
    grad1 (d.H 0 0) (d.f 0) (d.A 0 0) (x.z 0) (x.v 0) + sigma * (x.z 0 - xbar.z 0) := by
  unfold Core.Env.innerRes
  rw [hE]
  rfl

theorem innerRes1_v (x xbar : Point Binary64 1 0 1) (sigma : Binary64) : (E.innerRes x xbar sigma).v 0 =
    pfb (x.y 0 + sigma * (x.v 0 - xbar.v 0)) (x.v 0) E.opts.alpha := by
  unfold Core.Env.innerRes
  rw [hE]
  rfl

theorem axpy1 (a : Binary64) (x y : Point Binary64 1 0 1) :
    (E.axpy a x y).z 0 = y.z 0 + a * x.z 0 ∧ (E.axpy a x y).v 0 = y.v 0 + a * x.v 0 ∧
    (E.axpy a x y).y 0 = y.y 0 + a * x.y 0 + (-a) * d.b 0 := by
  unfold Core.Env.axpy
  rw [hE]
  exact ⟨rfl, rfl, rfl⟩

theorem start1 (z : Vec Binary64 1) (l : Vec Binary64 0) (v : Vec Binary64 1) : (Core.startPt E z l v).y 0 =
    (0 + (-1 * d.A 0 0) * z 0) + 1 * (0 + 1 * d.b 0) := by
  unfold Core.startPt
  rw [hE]
  rfl

theorem forcing1 : E.ops.forcingNorm =
    Scalar.sqrt ((0 + d.b 0 * d.b 0) + (0 + d.f 0 * d.f 0) + 0) := by
  rw [hE]
  rfl

end

section
variable (d : DenseData Binary64 1 0 1) (alpha sigma : Binary64) (x xbar : Point Binary64 1 0 1)

/-- The factored matrix. -/
noncomputable def k1 (H A sigma g m : Binary64) : Binary64 := H + sigma * 1 + (0 + A * (g / m * A))

theorem denseK1 (i j : Fin (1 + 0)) : denseK d alpha x xbar sigma i j =
    k1 (d.H 0 0) (d.A 0 0) sigma (pfbGamma alpha sigma x.y x.v xbar.v 0) (pfbMu alpha sigma x.y x.v xbar.v 0) := by
  obtain rfl : i = 0 := Subsingleton.elim (α := Fin 1) i 0
  obtain rfl : j = 0 := Subsingleton.elim (α := Fin 1) j 0
  rfl

/-- The pivot. -/
noncomputable def piv (k : Binary64) : Binary64 := k - (0 + 0)

theorem ldlt1_success (M : Mat Binary64 (1 + 0) (1 + 0)) : (ldltCompute M).success = true := by
  have : (ldltCompute M).success = (true && (decide (0 < cabs (piv (M 0 0))) ||
    decide (∀ i : Fin 1, 0 < i → ((M i 0 - (0 + 0)) == 0) = true)) &&
      !(false && decide (0 < cabs (piv (M 0 0))))) := rfl
  rw [this]
  have : ∀ i : Fin 1, 0 < i → ((M i 0 - (0 + 0)) == 0) = true := by
    intro i hi
    exact absurd hi (by rw [Subsingleton.elim i 0]; exact lt_irrefl _)
  simp

theorem ldlt1_mat (M : Mat Binary64 (1 + 0) (1 + 0)) : (ldltCompute M).mat 0 0 = piv (M 0 0) := rfl

theorem unitLowerTSolve1 (M : Mat Binary64 1 1) (x : Vec Binary64 1) : unitLowerTSolve M x 0 = x 0 - (0 + 0) := by
  have : unitLowerTSolve M x = x.set 0 (x 0 - (0 + 0)) := by
    unfold unitLowerTSolve forFinRev
    rw [Fin.foldr_succ, Fin.foldr_zero]
    rfl
  rw [this, Vec.get_set, if_pos rfl]

theorem unitLowerSolve1 (M : Mat Binary64 1 1) (x : Vec Binary64 1) : unitLowerSolve M x 0 = x 0 - (0 + 0) := by
  have : unitLowerSolve M x = x.set 0 (x 0 - (0 + 0)) := by
    unfold unitLowerSolve forFin
    rw [Fin.foldl_succ, Fin.foldl_zero]
    rfl
  rw [this, Vec.get_set, if_pos rfl]

theorem ldlt1_solve (M : Mat Binary64 (1 + 0) (1 + 0)) (r : Vec Binary64 (1 + 0)) : (ldltCompute M).solve r 0 =
    (if (2.2250738585072014e-308 : Binary64) < cabs (piv (M 0 0)) then (r 0 - (0 + 0)) / piv (M 0 0) else 0) -
      (0 + 0) := by
  have hp : (ldltCompute M).perm 0 = 0 := Subsingleton.elim (α := Fin 1) _ _
  have hm := ldlt1_mat M
  generalize ldltCompute M = f at hp hm
  rw [← hm]
  have e : f.solve r 0 = (r.set (f.perm 0) ((unitLowerTSolve f.mat (Vec.ofFn fun i =>
    if (2.2250738585072014e-308 : Binary64) < cabs (f.mat i i) then
      unitLowerSolve f.mat (Vec.ofFn fun i => r (f.perm i)) i / f.mat i i else 0)) 0)) 0 := rfl
  have t1 : ∀ x : Vec Binary64 (1 + 0), unitLowerTSolve f.mat x 0 = x 0 - (0 + 0) := fun x => unitLowerTSolve1 f.mat x
  have t2 : ∀ x : Vec Binary64 (1 + 0), unitLowerSolve f.mat x 0 = x 0 - (0 + 0) := fun x => unitLowerSolve1 f.mat x
  rw [e, t1, Vec.get_ofFn, t2, Vec.get_ofFn, hp, Vec.get_set, if_pos rfl]

/-- The Newton step of a scalar problem as the code computes it. -/
noncomputable def dz1 (k rz A rv m : Binary64) : Binary64 :=
  (if (2.2250738585072014e-308 : Binary64) < cabs (piv k) then (rz - (0 + A * (rv / m)) - (0 + 0)) / piv k else 0) -
    (0 + 0)

theorem denseStep1 (r : Resid Binary64 1 0 1) :
    let g := pfbGamma alpha sigma x.y x.v xbar.v 0
    let m := pfbMu alpha sigma x.y x.v xbar.v 0
    let s := denseStep d alpha x xbar sigma r
    s.z 0 = dz1 (k1 (d.H 0 0) (d.A 0 0) sigma g m) (r.z 0) (d.A 0 0) (r.v 0) m ∧
    s.v 0 = (g * (0 + d.A 0 0 * s.z 0) + r.v 0) / m ∧ s.y 0 = d.b 0 - (0 + d.A 0 0 * s.z 0) := by
  intro g m s
  refine ⟨?_, rfl, rfl⟩
  have := ldlt1_solve (denseK d alpha x xbar sigma) (Vec.append (r.z - d.A.transpose * r.v.cwiseQuotient
    (Vec.ofFn fun i => pfbMu alpha sigma x.y x.v xbar.v i)) (-r.l))
  rw [denseK1] at this
  exact this

end

namespace Binary64

theorem repP (n : Nat) (h : n ≤ 900) : Representable ((2 : ℝ) ^ n) := by
  have := rep_pow 1 n (by norm_num) (by omega) (by omega)
  rw [Int.cast_one, one_mul, zpow_natCast] at this
  exact this

theorem repN (n : Nat) (h : n ≤ 900) : Representable (-(2 : ℝ) ^ n) := representable_neg (repP n h)

theorem Is.nrm2 {a c : Binary64} {r : ℝ} (ha : Is a r) (hc : Is c 0) (h0 : 0 ≤ |r|) (hr : Representable |r|)
    (hr2 : Representable (r * r)) : Is (Fbstab.nrm2 a c) |r| := by
  have z0 : Is (Scalar.sqrt (0 : Binary64)) 0 := Is.zero.sqrt le_rfl (by norm_num) representable_zero
  have s1 := (Is.zero.zero_add (ha.mul ha rfl hr2)).sqrt h0 (abs_mul_abs_self r).symm hr
  have s2 := (Is.zero.zero_add (hc.mul_zero hc)).sqrt le_rfl (by norm_num) representable_zero
  have s3 := ((s1.mul s1 (abs_mul_abs_self r) hr2).add_zero (z0.mul_zero z0)).add_zero (s2.mul_zero s2)
  exact s3.sqrt h0 (abs_mul_abs_self r).symm hr

theorem Is.grad1 {H f A z v : Binary64} {h w : ℝ} {a : ℝ} (hH : Is H h) (hf : Is f 0) (hA : Is A a) (hz : Is z w)
    (hv : Is v 0) (hw : Representable (h * w)) : Is (Fbstab.grad1 H f A z v) (h * w) := by
  have o := Is.one
  have z0 := Is.zero
  have e1 := o.one_mul (z0.zero_add (o.one_mul hf))
  have e2 := (z0.zero_add ((o.one_mul hH).mul hz rfl hw)).add_zero e1
  exact (z0.zero_add ((o.one_mul hA).mul_zero hv)).zero_add (o.one_mul (z0.zero_add (o.one_mul e2)))

theorem Is.pfb {y v al : Binary64} {r a : ℝ} (hy : Is y r) (hv : Is v 0) (ha : Is al a) (h0 : 0 ≤ r)
    (hr2 : Representable (r * r)) {e : ℝ} (he : Is ((1 - al) * Fbstab.cmax 0 y) e) :
    Is (Fbstab.pfb y v al) 0 := by
  have s := ((hy.mul hy rfl hr2).add_zero (hv.mul_zero hv)).sqrt h0 rfl hy.rep
  have f := (hy.add_zero hv).sub s (sub_self r) representable_zero
  have m : Is (Fbstab.cmax 0 v) 0 := by simpa using Is.zero.cmax hv
  exact (ha.mul_zero f).add_zero (he.mul_zero m)

end Binary64

/-- `min 2^29 z^2 s.t. 2^41 z <= -8`. -/
def offsetQP : QP 1 0 1 where
  H := fun _ _ => 2 ^ 30
  f := fun _ => 0
  G := fun i _ => i.elim0
  h := fun i => i.elim0
  A := fun _ _ => 2 ^ 41
  b := fun _ => -8

/-- The same in binary64. -/
noncomputable def offsetProblem : DenseProblem Binary64 where
  H := ⟨1, 1, #[b64 (2 ^ 30)], rfl⟩
  f := ⟨#[b64 0]⟩
  G := ⟨0, 1, #[], rfl⟩
  h := ⟨#[]⟩
  A := ⟨1, 1, #[b64 (2 ^ 41)], rfl⟩
  b := ⟨#[b64 (-8)]⟩

/-- The guess `z = -2^17`, `v = 0`. -/
noncomputable def offsetGuess : CallerVar Binary64 := ⟨false, ⟨#[b64 (-2 ^ 17)]⟩, ⟨#[]⟩, ⟨#[b64 0]⟩, ⟨#[]⟩⟩

noncomputable abbrev offsetData : DenseData Binary64 1 0 1 := offsetProblem.toData 1 0 1

theorem is_b64 {r : ℝ} (h : Representable r) : Is (b64 r) r := b64_x h

theorem rep8 : Representable 8 := by exact_mod_cast rep_nat 8 (by norm_num)

namespace Drift

theorem dH : Is (offsetData.H 0 0) (2 ^ 30) := is_b64 (repP 30 (by norm_num))
theorem df : Is (offsetData.f 0) 0 := is_b64 representable_zero
theorem dA : Is (offsetData.A 0 0) (2 ^ 41) := is_b64 (repP 41 (by norm_num))
theorem db : Is (offsetData.b 0) (-8) := is_b64 (representable_neg rep8)

theorem round_58_sub : round53 ((-2 ^ 41) * (-2 ^ 17) + -8) = 2 ^ 58 := by
  have := round53_of (x := (-2 ^ 41) * (-2 ^ 17) + -8) (e := 5) (m := 2 ^ 53) (by norm_num) (by norm_num)
    (by norm_num) (by norm_num)
  rw [this]; norm_num

theorem round_58_add : round53 (-8 - 2 ^ 41 * 2 ^ 17) = -2 ^ 58 := by
  have := round53_of (x := -8 - 2 ^ 41 * 2 ^ 17) (e := 6) (m := -2 ^ 52) (by norm_num) (by norm_num [abs_of_neg])
    (by norm_num [abs_of_neg]) (by norm_num)
  rw [this]; norm_num

theorem round_30 {s : ℝ} (h0 : 0 ≤ s) (h1 : s ≤ 2e-8) : round53 (2 ^ 30 + s) = 2 ^ 30 := by
  norm_num at h1
  have a : |(2 : ℝ) ^ 30 + s| = 2 ^ 30 + s := abs_of_nonneg (by positivity)
  have := round53_of (x := 2 ^ 30 + s) (e := -22) (m := 2 ^ 52) (by norm_num) (by rw [a]; norm_num; linarith)
    (by rw [a]; norm_num; linarith) (by
      have : (2 : ℝ) ^ 30 + s - ((2 ^ 52 : ℤ) : ℝ) * 2 ^ (-22 : ℤ) = s := by norm_num
      rw [this, abs_of_nonneg h0]; norm_num; linarith)
  rw [this]; norm_num

/-- The options of a new solver. -/
noncomputable abbrev opts : Params Binary64 := Params.defaults

theorem two500 : (2 : ℝ) ^ (-500 : ℤ) ≤ 1e-20 ∧ (1e30 : ℝ) ≤ (2 : ℝ) ^ (500 : ℤ) := by
  have k2 : (2 : ℝ) ^ (-500 : ℤ) ≤ (2 : ℝ) ^ (-100 : ℤ) := zpow_le_zpow_right₀ (by norm_num) (by norm_num)
  have k3 : (2 : ℝ) ^ (100 : ℤ) ≤ (2 : ℝ) ^ (500 : ℤ) := zpow_le_zpow_right₀ (by norm_num) (by norm_num)
  exact ⟨k2.trans (by norm_num), le_trans (by norm_num) k3⟩

/-- Rounded products, sums and differences of moderate size. -/
theorem mulC {x y : Binary64} {a b : ℝ} (h : Is x a) (h' : Is y b) (h0 : 1 / 10 ^ 20 ≤ a * b) (h1 : a * b ≤ 10 ^ 30) :
    ∃ c, Is (x * y) c ∧ a * b - 1 / 10 ^ 15 * (a * b) ≤ c ∧ c ≤ a * b + 1 / 10 ^ 15 * (a * b) := by
  obtain ⟨c, hc, k⟩ := h.mul_close h' (two500.1.trans (by norm_num at h0 ⊢; exact h0))
    (le_trans (by norm_num at h1 ⊢; exact h1) two500.2)
  rw [abs_le] at k
  norm_num at k ⊢
  exact ⟨c, hc, by linarith [k.1], by linarith [k.2]⟩

theorem addC {x y : Binary64} {a b : ℝ} (h : Is x a) (h' : Is y b) (h0 : 1 / 10 ^ 20 ≤ a + b) (h1 : a + b ≤ 10 ^ 30) :
    ∃ c, Is (x + y) c ∧ a + b - 1 / 10 ^ 15 * (a + b) ≤ c ∧ c ≤ a + b + 1 / 10 ^ 15 * (a + b) := by
  obtain ⟨c, hc, k⟩ := h.add_close h' (two500.1.trans (by norm_num at h0 ⊢; exact h0))
    (le_trans (by norm_num at h1 ⊢; exact h1) two500.2)
  rw [abs_le] at k
  norm_num at k ⊢
  exact ⟨c, hc, by linarith [k.1], by linarith [k.2]⟩

theorem subC {x y : Binary64} {a b : ℝ} (h : Is x a) (h' : Is y b) (h0 : 1 / 10 ^ 20 ≤ a - b) (h1 : a - b ≤ 10 ^ 30) :
    ∃ c, Is (x - y) c ∧ a - b - 1 / 10 ^ 15 * (a - b) ≤ c ∧ c ≤ a - b + 1 / 10 ^ 15 * (a - b) := by
  obtain ⟨c, hc, k⟩ := h.sub_close h' (two500.1.trans (by norm_num at h0 ⊢; linarith))
    (le_trans (by norm_num at h1 ⊢; linarith) two500.2)
  rw [abs_le] at k
  norm_num at k ⊢
  exact ⟨c, hc, by linarith [k.1], by linarith [k.2]⟩

theorem lit (m : Nat) (s : Bool) (e : Nat) (h0 : 1e-20 ≤ (OfScientific.ofScientific m s e : ℝ))
    (h1 : (OfScientific.ofScientific m s e : ℝ) ≤ 1e30) :
    ∃ c, Is (OfScientific.ofScientific m s e : Binary64) c ∧
      (1 - 1e-15) * (OfScientific.ofScientific m s e : ℝ) ≤ c ∧
      c ≤ (1 + 1e-15) * (OfScientific.ofScientific m s e : ℝ) := by
  obtain ⟨c, h2, h3⟩ := is_literal m s e (two500.1.trans h0) (h1.trans two500.2)
  rw [abs_le] at h3
  exact ⟨c, h2, by linarith [h3.1], by linarith [h3.2]⟩

theorem alpha : ∃ c, Is (0.95 : Binary64) c ∧ 0.94 ≤ c ∧ c ≤ 0.96 := by
  obtain ⟨c, h, h1, h2⟩ := lit 95 true 2 (by norm_num) (by norm_num)
  exact ⟨c, h, le_trans (by norm_num) h1, h2.trans (by norm_num)⟩

theorem sigma : ∃ c, Is (1e-8 : Binary64) c ∧ 0.99e-8 ≤ c ∧ c ≤ 1.01e-8 := by
  obtain ⟨c, h, h1, h2⟩ := lit 1 true 8 (by norm_num) (by norm_num)
  exact ⟨c, h, le_trans (by norm_num) h1, h2.trans (by norm_num)⟩

theorem lit2 : ∃ c, Is (1e-2 : Binary64) c ∧ 0.99e-2 ≤ c ∧ c ≤ 1.01e-2 := by
  obtain ⟨c, h, h1, h2⟩ := lit 1 true 2 (by norm_num) (by norm_num)
  exact ⟨c, h, le_trans (by norm_num) h1, h2.trans (by norm_num)⟩

theorem lit12 : ∃ c, Is (1e-12 : Binary64) c ∧ 0.99e-12 ≤ c ∧ c ≤ 1.01e-12 := by
  obtain ⟨c, h, h1, h2⟩ := lit 1 true 12 (by norm_num) (by norm_num)
  exact ⟨c, h, le_trans (by norm_num) h1, h2.trans (by norm_num)⟩

theorem lit13 : ∃ c, Is (1e-13 : Binary64) c ∧ 0.99e-13 ≤ c ∧ c ≤ 1.01e-13 := by
  obtain ⟨c, h, h1, h2⟩ := lit 1 true 13 (by norm_num) (by norm_num)
  exact ⟨c, h, le_trans (by norm_num) h1, h2.trans (by norm_num)⟩

theorem lit6 : ∃ c, Is (1e-6 : Binary64) c ∧ 0.99e-6 ≤ c ∧ c ≤ 1.01e-6 := by
  obtain ⟨c, h, h1, h2⟩ := lit 1 true 6 (by norm_num) (by norm_num)
  exact ⟨c, h, le_trans (by norm_num) h1, h2.trans (by norm_num)⟩

theorem delta : ∃ c, Is (0.2 : Binary64) c ∧ 0.19 ≤ c ∧ c ≤ 0.21 := by
  obtain ⟨c, h, h1, h2⟩ := lit 2 true 1 (by norm_num) (by norm_num)
  exact ⟨c, h, le_trans (by norm_num) h1, h2.trans (by norm_num)⟩

theorem half : Is (0.5 : Binary64) (1 / 2) := by
  refine is_literal_exact 5 true 1 (by norm_num) ?_
  have := rep_pow 1 (-1) (by norm_num) (by norm_num) (by norm_num)
  norm_num at this ⊢
  exact this

theorem two : Is (2.0 : Binary64) 2 :=
  is_literal_exact 20 true 1 (by norm_num) (by exact_mod_cast rep_nat 2 (by norm_num))

/-- The smallest normal number is below 1. -/
theorem tiny : ∃ c, Is (2.2250738585072014e-308 : Binary64) c ∧ c ≤ 1 := by
  set r : ℝ := (2.2250738585072014e-308 : ℝ) with hr
  have r0 : 0 ≤ r := by
    rw [hr]
    set_option exponentiation.threshold 400 in norm_num
  have r1 : r ≤ 1 / 4 := by
    rw [hr]
    set_option exponentiation.threshold 400 in norm_num
  have e := round53_err r
  have k1 : (2 : ℝ) ^ (-53 : ℤ) ≤ 1 := zpow_le_one_of_nonpos₀ (by norm_num) (by norm_num)
  have k2 : (2 : ℝ) ^ (-1075 : ℤ) ≤ (2 : ℝ) ^ (-2 : ℤ) := zpow_le_zpow_right₀ (by norm_num) (by norm_num)
  have k3 : (2 : ℝ) ^ (-2 : ℤ) = 1 / 4 := by norm_num
  rw [k3] at k2
  rw [abs_of_nonneg r0] at e
  have k4 : (2 : ℝ) ^ (-53 : ℤ) * r ≤ r := mul_le_of_le_one_left r0 k1
  have hb : round53 r ≤ 1 := by
    have := (abs_le.1 e).2
    linarith
  have h0 := round53_nonneg r0
  refine ⟨round53 r, ?_, hb⟩
  show Is (Binary64.round (OfScientific.ofScientific 22250738585072014 true 324)) _
  rw [up_ofScientific]
  refine is_round rfl (round53_representable r ?_)
  rw [abs_of_nonneg h0]
  exact hb.trans_lt (one_lt_zpow₀ (by norm_num) (by norm_num))

/-- `1 - alpha` and its product with a margin are finite. -/
theorem oneSub {al a : ℝ} {x y : Binary64} (hx : Is x al) (h1 : 0.94 ≤ al) (h2 : al ≤ 0.96) (hy : Is y a) (ha : 1 ≤ a)
    (ha' : a ≤ 1e20) : ∃ e, Is ((1 - x) * cmax 0 y) e := by
  have t := two500
  norm_num at h1 h2 t
  obtain ⟨c, hc, hc1⟩ := Is.one.sub_close hx (t.1.trans (by linarith)) (le_trans (by linarith) t.2)
  have m := Is.zero.cmax hy
  rw [max_eq_right (by linarith)] at m
  rw [abs_le] at hc1
  norm_num at hc1 ha'
  have hc3 : 1 / 100 ≤ c := by linarith [hc1.1]
  have hc4 : c ≤ 1 := by linarith [hc1.2]
  have p1 : 1 / 100 ≤ c * a := by nlinarith
  have p2 : c * a ≤ a := by nlinarith
  obtain ⟨e, he, -⟩ := hc.mul_close m (t.1.trans (by linarith)) (le_trans (by linarith) t.2)
  exact ⟨e, he⟩

/-- The environment of the call. -/
noncomputable def E : Core.Env Binary64 1 0 1 := Core.env (denseSem Binary64 1 0 1) offsetData offsetData.ops opts

theorem hE : E.ops = offsetData.ops := rfl

/-- Points with given entries. -/
structure At (x : Point Binary64 1 0 1) (z v y : ℝ) : Prop where
  z : Is (x.z 0) z
  v : Is (x.v 0) v
  y : Is (x.y 0) y

noncomputable def x0 : Point Binary64 1 0 1 :=
  Core.startPt E (offsetGuess.z.toVec 1) (offsetGuess.l.toVec 0) (offsetGuess.v.toVec 1)

theorem minusOne : Is (-1 : Binary64) (-1) := Is.one.neg

theorem at0 : At x0 (-2 ^ 17) 0 (2 ^ 58) where
  z := is_b64 (repN 17 (by norm_num))
  v := is_b64 representable_zero
  y := by
    have hz : Is ((offsetGuess.z.toVec 1) 0) (-2 ^ 17) := is_b64 (repN 17 (by norm_num))
    have e := start1 E offsetData hE (offsetGuess.z.toVec 1) (offsetGuess.l.toVec 0) (offsetGuess.v.toVec 1)
    have h1 := (minusOne.neg_one_mul dA).mul hz (c := (-2 ^ 41) * (-2 ^ 17)) rfl (by
      have := repP 58 (by norm_num)
      norm_num at this ⊢
      exact this)
    have h2 := Is.one.one_mul (Is.zero.zero_add (Is.one.one_mul db))
    have h3 := (Is.zero.zero_add h1).add' h2 round_58_sub (repP 58 (by norm_num))
    rw [← e] at h3
    exact h3

theorem rep2 (n : Nat) (h : n ≤ 450) : Representable ((2 : ℝ) ^ n * 2 ^ n) := by
  rw [← pow_add]; exact repP _ (by omega)

theorem rep2n (n : Nat) (h : n ≤ 450) : Representable (-(2 : ℝ) ^ n * -2 ^ n) := by
  rw [neg_mul_neg]; exact rep2 n h

/-- The complementarity residuals at a point with positive margin and zero multiplier vanish. -/
theorem pen_zero {x : Point Binary64 1 0 1} {z a : ℝ} (h : At x z 0 a) (ha : 1 ≤ a) (ha' : a ≤ 1e20) :
    Is (E.opts.alpha * cmin (x.y 0) (x.v 0) + (1 - E.opts.alpha) * cmax 0 (x.y 0) * cmax 0 (x.v 0)) 0 := by
  obtain ⟨al, hal, a1, a2⟩ := alpha
  obtain ⟨e, he⟩ := oneSub hal a1 a2 h.y ha ha'
  have m1 := h.y.cmin h.v
  rw [min_eq_right (by linarith)] at m1
  have m2 := Is.zero.cmax h.v
  rw [max_self] at m2
  exact (Is.mul_zero hal m1).add_zero (he.mul_zero m2)

theorem fb_zero {x : Point Binary64 1 0 1} {z a : ℝ} (h : At x z 0 a) (ha : 1 ≤ a) (ha' : a ≤ 1e20)
    (hr : Representable (a * a)) (hx : Is (x0.v 0) 0) :
    Is (pfb (x.y 0 + E.opts.sigma0 * (x.v 0 - x0.v 0)) (x.v 0) E.opts.alpha) 0 := by
  obtain ⟨al, hal, a1, a2⟩ := alpha
  obtain ⟨s, hs, -⟩ := sigma
  have hs' : Is E.opts.sigma0 s := hs
  have ys := h.y.add_zero (hs'.mul_zero (h.v.sub_zero hx))
  obtain ⟨e, he⟩ := oneSub hal a1 a2 ys ha ha'
  exact ys.pfb h.v hal (by linarith) hr he

theorem grad0 : Is (grad1 (offsetData.H 0 0) (offsetData.f 0) (offsetData.A 0 0) (x0.z 0) (x0.v 0)) (-2 ^ 47) := by
  have e : (2 : ℝ) ^ 30 * -2 ^ 17 = -2 ^ 47 := by norm_num
  have := dH.grad1 df dA at0.z at0.v (by rw [e]; exact repN 47 (by norm_num))
  rw [e] at this
  exact this

theorem inner0_z : Is ((E.innerRes x0 x0 E.opts.sigma0).z 0) (-2 ^ 47) := by
  obtain ⟨s, hs, -⟩ := sigma
  have hs' : Is E.opts.sigma0 s := hs
  rw [innerRes1_z E offsetData hE]
  exact grad0.add_zero (hs'.mul_zero (at0.z.sub at0.z (sub_self _) representable_zero))

theorem inner0_v : Is ((E.innerRes x0 x0 E.opts.sigma0).v 0) 0 := by
  rw [innerRes1_v E offsetData hE]
  exact fb_zero at0 (by norm_num) (by norm_num) (rep2 58 (by norm_num)) at0.v

theorem norm0 : Is (Core.Resid.norm (E.penRes x0)) (2 ^ 47) := by
  have := grad0.nrm2 (pen_zero at0 (by norm_num) (by norm_num)) (abs_nonneg _)
    (by rw [abs_neg, abs_of_pos (by positivity)]; exact repP 47 (by norm_num)) (rep2n 47 (by norm_num))
  rw [penRes1 E offsetData hE]
  rw [abs_neg, abs_of_pos (by positivity)] at this
  exact this

theorem innerNorm0 : Is (Core.Resid.norm (E.innerRes x0 x0 E.opts.sigma0)) (2 ^ 47) := by
  have := inner0_z.nrm2 inner0_v (abs_nonneg _)
    (by rw [abs_neg, abs_of_pos (by positivity)]; exact repP 47 (by norm_num)) (rep2n 47 (by norm_num))
  rw [abs_neg, abs_of_pos (by positivity), innerRes1_z E offsetData hE, innerRes1_v E offsetData hE] at this
  rw [innerRes1 E offsetData hE]
  exact this

theorem merit0 : Is (Core.Resid.merit (Core.Resid.negate (E.innerRes x0 x0 E.opts.sigma0))) (2 ^ 93) := by
  have e : Core.Resid.norm (Core.Resid.negate (E.innerRes x0 x0 E.opts.sigma0)) =
    Core.Resid.norm (E.innerRes x0 x0 E.opts.sigma0) := rfl
  unfold Core.Resid.merit
  rw [e]
  refine (half.mul innerNorm0 (c := 2 ^ 46) (by norm_num) (repP 46 (by norm_num))).mul innerNorm0 (by norm_num)
    (repP 93 (by norm_num))

/-- The gradient of the penalised Fischer-Burmeister function. -/
theorem grad_pfb : ∃ al, 0.94 ≤ al ∧ Is (pfbGamma E.opts.alpha E.opts.sigma0 x0.y x0.v x0.v 0) 0 ∧
    Is (pfbMu E.opts.alpha E.opts.sigma0 x0.y x0.v x0.v 0) al := by
  obtain ⟨al, hal, a1, -⟩ := alpha
  have hal' : Is E.opts.alpha al := hal
  obtain ⟨s, hs, -⟩ := sigma
  have hs' : Is E.opts.sigma0 s := hs
  obtain ⟨t, ht, -, t2⟩ := lit13
  have ys := at0.y.add_zero (hs'.mul_zero (at0.v.sub_zero at0.v))
  have r := ((ys.mul ys rfl (rep2 58 (by norm_num))).add_zero (at0.v.mul_zero at0.v)).sqrt (by positivity) rfl
    (repP 58 (by norm_num))
  have c1 : ¬Scalar.sqrt ((x0.y 0 + E.opts.sigma0 * (x0.v 0 - x0.v 0)) *
      (x0.y 0 + E.opts.sigma0 * (x0.v 0 - x0.v 0)) + x0.v 0 * x0.v 0) < (1e-13 : Binary64) := by
    rw [r.lt ht]
    norm_num at t2 ⊢
    linarith
  have c2 : ¬(0 < x0.y 0 + E.opts.sigma0 * (x0.v 0 - x0.v 0) ∧ 0 < x0.v 0) := by
    rw [Is.zero.lt at0.v]
    exact fun h => lt_irrefl _ h.2
  have g1 : Is (pfbGamma E.opts.alpha E.opts.sigma0 x0.y x0.v x0.v 0) 0 := by
    unfold pfbGamma pfbGradient
    simp only [if_neg c1, if_neg c2]
    exact hal'.mul_zero (Is.one.sub (ys.div r (by positivity) (div_self (by positivity)) representable_one)
      (sub_self 1) representable_zero)
  refine ⟨al, a1, g1, ?_⟩
  have e : pfbMu E.opts.alpha E.opts.sigma0 x0.y x0.v x0.v 0 =
    (pfbGradient E.opts.alpha (x0.y 0 + E.opts.sigma0 * (x0.v 0 - x0.v 0)) (x0.v 0)).2 + E.opts.sigma0 *
      pfbGamma E.opts.alpha E.opts.sigma0 x0.y x0.v x0.v 0 := rfl
  rw [e]
  refine Is.add_zero ?_ (hs'.mul_zero g1)
  unfold pfbGradient
  simp only [if_neg c1, if_neg c2]
  exact hal'.mul_one (Is.one.sub_zero (at0.v.div r (by positivity) (zero_div _) representable_zero))

/-- The Newton step. -/
noncomputable def step : Point Binary64 1 0 1 :=
  denseStep offsetData E.opts.alpha x0 x0 E.opts.sigma0 (Core.Resid.negate (E.innerRes x0 x0 E.opts.sigma0))

theorem at_step : At step (2 ^ 17) 0 (-2 ^ 58) := by
  obtain ⟨al, a1, hg, hm⟩ := grad_pfb
  have al0 : al ≠ 0 := by norm_num at a1; intro h; rw [h] at a1; norm_num at a1
  obtain ⟨s, hs, s1, s2⟩ := sigma
  have hs' : Is E.opts.sigma0 s := hs
  obtain ⟨h1, h2, h3⟩ := denseStep1 offsetData E.opts.alpha E.opts.sigma0 x0 x0
    (Core.Resid.negate (E.innerRes x0 x0 E.opts.sigma0))
  have rz : Is ((Core.Resid.negate (E.innerRes x0 x0 E.opts.sigma0)).z 0) (2 ^ 47) :=
    inner0_z.mul minusOne (by norm_num) (repP 47 (by norm_num))
  have rv : Is ((Core.Resid.negate (E.innerRes x0 x0 E.opts.sigma0)).v 0) 0 := inner0_v.zero_mul minusOne
  have hk : Is (k1 (offsetData.H 0 0) (offsetData.A 0 0) E.opts.sigma0
      (pfbGamma E.opts.alpha E.opts.sigma0 x0.y x0.v x0.v 0)
      (pfbMu E.opts.alpha E.opts.sigma0 x0.y x0.v x0.v 0)) (2 ^ 30) := by
    have e1 := dH.add' (hs'.mul_one Is.one) (round_30 (by norm_num at s1; linarith) (by norm_num at s2 ⊢; linarith))
      (repP 30 (by norm_num))
    have e2 := hg.div hm al0 (zero_div _) representable_zero
    exact e1.add_zero (Is.zero.zero_add (dA.mul_zero (e2.zero_mul dA)))
  have hp := hk.sub_zero (Is.zero.zero_add Is.zero)
  obtain ⟨t, ht, t1⟩ := tiny
  have hz : Is (step.z 0) (2 ^ 17) := by
    have e : step.z 0 = _ := h1
    rw [e]
    unfold dz1
    rw [if_pos (by
      unfold piv
      rw [ht.lt hp.cabs, abs_of_pos (by positivity)]
      norm_num
      linarith)]
    have r1 := (rz.sub_zero (Is.zero.zero_add (dA.mul_zero (rv.div hm al0 (zero_div _) representable_zero)))).sub_zero
      (Is.zero.zero_add Is.zero)
    exact (r1.div hp (by positivity) (by norm_num) (repP 17 (by norm_num))).sub_zero (Is.zero.zero_add Is.zero)
  have Az := Is.zero.zero_add (dA.mul hz rfl (by rw [← pow_add]; exact repP 58 (by norm_num)))
  refine ⟨hz, ?_, ?_⟩
  · have e : step.v 0 = _ := h2
    rw [e]
    exact ((hg.zero_mul Az).add_zero rv).div hm al0 (zero_div _) representable_zero
  · have e : step.y 0 = _ := h3
    rw [e]
    exact db.sub' Az round_58_add (repN 58 (by norm_num))

noncomputable def x1 : Point Binary64 1 0 1 := E.axpy 1 step x0

theorem at1 : At x1 0 0 8 := by
  obtain ⟨h1, h2, h3⟩ := axpy1 E offsetData hE 1 step x0
  refine ⟨?_, ?_, ?_⟩
  · have e : x1.z 0 = _ := h1
    rw [e]
    exact at0.z.add (Is.one.one_mul at_step.z) (by norm_num) representable_zero
  · have e : x1.v 0 = _ := h2
    rw [e]
    exact at0.v.add_zero (Is.one.one_mul at_step.v)
  · have e : x1.y 0 = _ := h3
    rw [e]
    have := (at0.y.add (Is.one.one_mul at_step.y) (by norm_num) representable_zero).zero_add
      (minusOne.neg_one_mul db)
    rw [neg_neg] at this
    exact this

theorem grad_zero {x : Point Binary64 1 0 1} {y : ℝ} (h : At x 0 0 y) :
    Is (grad1 (offsetData.H 0 0) (offsetData.f 0) (offsetData.A 0 0) (x.z 0) (x.v 0)) 0 := by
  have := dH.grad1 df dA h.z h.v (by rw [mul_zero]; exact representable_zero)
  rw [mul_zero] at this
  exact this

theorem norm_zero {x : Point Binary64 1 0 1} (h : At x 0 0 8) : Is (Core.Resid.norm (E.penRes x)) 0 := by
  have := (grad_zero h).nrm2 (pen_zero h (by norm_num) (by norm_num)) (abs_nonneg _)
    (by rw [abs_zero]; exact representable_zero) (by rw [mul_zero]; exact representable_zero)
  rw [penRes1 E offsetData hE]
  rw [abs_zero] at this
  exact this

/-- A rounded norm. -/
theorem nrm_close {a c : Binary64} {r : ℝ} (ha : Is a r) (hc : Is c 0) (h0 : 1e-3 ≤ r) (h1 : r ≤ 1.5e-3) :
    ∃ e, Is (nrm2 a c) e ∧ 8e-4 ≤ e ∧ e ≤ 1.6e-3 := by
  have t := two500
  norm_num at h0 h1 t
  have z0 : Is (Scalar.sqrt (0 : Binary64)) 0 := Is.zero.sqrt le_rfl (by norm_num) representable_zero
  have s2 := (Is.zero.zero_add (hc.mul_zero hc)).sqrt le_rfl (by norm_num) representable_zero
  have sq : ∀ {y : Binary64} {q : ℝ}, Is y q → 1 / 2000 ≤ q → q ≤ 2 / 1000 →
      ∃ e, Is (y * y) e ∧ (1 - 1e-15) * (q * q) ≤ e ∧ e ≤ (1 + 1e-15) * (q * q) := by
    intro y q hy q0 q1
    have p1 : 1 / 4000000 ≤ q * q := by nlinarith
    have p2 : q * q ≤ 1 := by nlinarith
    obtain ⟨e, he, h⟩ := hy.mul_close hy (t.1.trans (by linarith)) (le_trans (by linarith) t.2)
    rw [abs_le] at h
    exact ⟨e, he, by linarith [h.1], by linarith [h.2]⟩
  have sr : ∀ {y : Binary64} {q : ℝ}, Is y q → 1 / 4000000 ≤ q → q ≤ 1 →
      ∃ e, Is (Scalar.sqrt y) e ∧ (1 - 1e-15) * √q ≤ e ∧ e ≤ (1 + 1e-15) * √q := by
    intro y q hy q0 q1
    have p1 : 1 / 2000 ≤ √q := Real.le_sqrt_of_sq_le (by norm_num; linarith)
    have p2 : √q ≤ 1 := by rw [Real.sqrt_le_left (by norm_num)]; linarith
    obtain ⟨e, he, h⟩ := hy.sqrt_close (t.1.trans (by linarith)) (le_trans (by linarith) t.2)
    rw [abs_le] at h
    exact ⟨e, he, by linarith [h.1], by linarith [h.2]⟩
  have bound : ∀ {q e : ℝ}, (9 : ℝ) / 10000 ≤ q → q ≤ 16 / 10000 → (1 - 1e-15) * (q * q) ≤ e →
      e ≤ (1 + 1e-15) * (q * q) → (1 - 1e-14) * q ≤ √e ∧ √e ≤ (1 + 1e-14) * q := by
    intro q e q0 q1 e1 e2
    have qq : 0 ≤ q * q := mul_self_nonneg q
    norm_num at e1 e2 ⊢
    constructor
    · refine Real.le_sqrt_of_sq_le ?_
      rw [mul_pow, pow_two q]
      refine le_trans ?_ e1
      exact mul_le_mul_of_nonneg_right (by norm_num) qq
    · rw [Real.sqrt_le_left (by positivity), mul_pow, pow_two q]
      refine e2.trans ?_
      exact mul_le_mul_of_nonneg_right (by norm_num) qq
  obtain ⟨e1, i1, l1, u1⟩ := sq ha (by linarith) (by linarith)
  obtain ⟨b1, b2⟩ := bound (by linarith) (by linarith) l1 u1
  have m1 : 1 / 4000000 ≤ e1 := by norm_num at l1; nlinarith
  have m2 : e1 ≤ 1 := by norm_num at u1; nlinarith
  obtain ⟨e2, i2, l2, u2⟩ := sr (Is.zero.zero_add i1) m1 m2
  norm_num at b1 b2 l2 u2
  have q1 : (9 : ℝ) / 10000 ≤ e2 := by linarith
  have q2 : e2 ≤ 155 / 100000 := by linarith
  obtain ⟨e3, i3, l3, u3⟩ := sq i2 (by linarith) (by linarith)
  obtain ⟨b3, b4⟩ := bound q1 (by linarith) l3 u3
  have m3 : 1 / 4000000 ≤ e3 := by norm_num at l3; nlinarith
  have m4 : e3 ≤ 1 := by norm_num at u3; nlinarith
  obtain ⟨e4, i4, l4, u4⟩ := sr ((i3.add_zero (z0.mul_zero z0)).add_zero (s2.mul_zero s2)) m3 m4
  norm_num at b3 b4 l4 u4
  exact ⟨e4, i4, by norm_num; linarith, by norm_num; linarith⟩

theorem innerNorm1 : ∃ e, Is (Core.Resid.norm (E.innerRes x1 x0 E.opts.sigma0)) e ∧ 8e-4 ≤ e ∧ e ≤ 1.6e-3 := by
  obtain ⟨s, hs, s1, s2⟩ := sigma
  have hs' : Is E.opts.sigma0 s := hs
  norm_num at s1 s2
  have dz := at1.z.sub at0.z (c := 2 ^ 17) (by norm_num) (repP 17 (by norm_num))
  obtain ⟨c, hc, hc1⟩ := mulC hs' dz (by norm_num; linarith) (by norm_num; linarith)
  norm_num at hc1
  rw [innerRes1 E offsetData hE]
  refine nrm_close ((grad_zero at1).zero_add hc) (fb_zero at1 (by norm_num) (by norm_num) ?_ at0.v) ?_ ?_
  · have := rep_nat 64 (by norm_num)
    norm_num at this ⊢
    exact this
  · norm_num; linarith [hc1.1]
  · norm_num; linarith [hc1.2]

theorem at_proj : At (Core.projectDuals x1) 0 0 8 := by
  refine ⟨at1.z, ?_, at1.y⟩
  have := at1.v.cmax Is.zero
  rw [max_self] at this
  exact this

theorem forcing : Is E.ops.forcingNorm 8 := by
  rw [forcing1 E offsetData hE]
  have h64 : Representable 64 := by exact_mod_cast rep_nat 64 (by norm_num)
  exact (((Is.zero.zero_add (db.mul db (c := 64) (by norm_num) h64)).add_zero
    (Is.zero.zero_add (df.mul_zero df))).add_zero Is.zero).sqrt (by norm_num) (by norm_num) rep8

theorem tol : ∃ t, Is E.comboTol t ∧ 0 ≤ t ∧ t ≤ 1 := by
  obtain ⟨a, ha, a1, a2⟩ := lit6
  obtain ⟨r, hr, r1, r2⟩ := lit12
  norm_num at a1 a2 r1 r2
  have h9 := Is.one.add forcing (c := 9) (by norm_num) rep9
  obtain ⟨c, hc, hc1⟩ := mulC hr h9 (by norm_num; linarith) (by norm_num; linarith)
  norm_num at hc1
  obtain ⟨e, he, he1⟩ := addC ha hc (by norm_num; linarith [hc1.1]) (by norm_num; linarith [hc1.2])
  norm_num at he1
  exact ⟨e, he, by linarith [he1.1, hc1.1], by linarith [he1.2, hc1.2]⟩

theorem feasible (ws : FeasWs Binary64 1 0 1) :
    (checkFeasibility E.ops (E.axpy (-1) x0 (Core.projectDuals x1)) E.opts.infeasTol ws).1 = .feasible := by
  obtain ⟨h1, h2, -⟩ := axpy1 E offsetData hE (-1) x0 (Core.projectDuals x1)
  have hz : Is ((E.axpy (-1) x0 (Core.projectDuals x1)).z 0) (2 ^ 17) := by
    rw [h1]
    have := at_proj.z.zero_add (minusOne.neg_one_mul at0.z)
    rw [neg_neg] at this
    exact this
  have hv : Is ((E.axpy (-1) x0 (Core.projectDuals x1)).v 0) 0 := by
    rw [h2]
    exact at_proj.v.add_zero (minusOne.mul_zero at0.v)
  generalize E.axpy (-1) x0 (Core.projectDuals x1) = x at hz hv
  have d4 : ¬(E.ops.axpyf 1 (Vec.const 0)).dot x.z < 0 := by
    have e : (E.ops.axpyf 1 (Vec.const 0)).dot x.z = 0 + (0 + 1 * offsetData.f 0) * x.z 0 := rfl
    have := Is.zero.zero_add ((Is.zero.zero_add (Is.one.one_mul df)).zero_mul hz)
    rw [e, this.lt Is.zero]
    exact lt_irrefl _
  have p2 : ¬(E.ops.axpyh 1 (Vec.const 0)).dot x.l + (E.ops.axpyb 1 (Vec.const 0)).dot x.v < 0 := by
    have e : (E.ops.axpyh 1 (Vec.const 0)).dot x.l + (E.ops.axpyb 1 (Vec.const 0)).dot x.v =
      0 + (0 + (0 + 1 * offsetData.b 0) * x.v 0) := rfl
    have := Is.zero.zero_add (Is.zero.zero_add ((Is.zero.zero_add (Is.one.one_mul db)).mul_zero hv))
    rw [e, this.lt Is.zero]
    exact lt_irrefl _
  unfold checkFeasibility
  simp only [decide_eq_false d4, decide_eq_false p2, Bool.and_false, Bool.false_and, Bool.not_false, Bool.and_self,
    if_true]

theorem oneStep (ws : FeasWs Binary64 1 0 1) : ∃ t0 t1 g, Core.OneStep E ws x0 x1 t0 t1 g := by
  obtain ⟨c2, h2, a1, a2⟩ := lit2
  obtain ⟨c12, h12, b1, b2⟩ := lit12
  obtain ⟨de, hde, d1, d2⟩ := delta
  obtain ⟨n1, hn1, n0, n2⟩ := innerNorm1
  obtain ⟨tl, htl, tl0, tl1⟩ := tol
  obtain ⟨et, het, et1, et2⟩ := sigma
  obtain ⟨s, hs, s1, s2⟩ := sigma
  norm_num at a1 a2 b1 b2 d1 d2 n0 n2 et1 et2 s1
  obtain ⟨t0, e0, i0⟩ := norm0.saturate h12 h2 (by linarith)
  rw [min_eq_right (by norm_num; linarith), max_eq_left (by linarith)] at i0
  have q1 : 1 / 1000 ≤ c2 * de := by nlinarith
  have q3 : 18 / 10000 ≤ c2 * de := by nlinarith
  have q2 : c2 * de ≤ 1 := by nlinarith
  obtain ⟨m, hm, m1⟩ := mulC i0 hde (by norm_num; linarith) (by norm_num; linarith)
  norm_num at m1
  obtain ⟨t1, e1, i1⟩ := hm.saturate h12 norm0 (by norm_num; linarith)
  have m2 : 17 / 10000 ≤ m := by linarith [m1.1]
  have m3 : m ≤ 2 := by linarith [m1.2]
  rw [min_eq_left (by norm_num; linarith), max_eq_left (by linarith)] at i1
  refine ⟨t0, t1, denseStep offsetData E.opts.alpha x0 x0 E.opts.sigma0, ?_⟩
  have hs' : Is E.opts.sigma0 s := hs
  have hf : E.factor x0 x0 E.opts.sigma0 = .ok (some (denseStep offsetData E.opts.alpha x0 x0 E.opts.sigma0)) := by
    show denseFactor offsetData E.opts.alpha x0 x0 E.opts.sigma0 = _
    unfold denseFactor
    rw [if_neg (by rw [hs'.le Is.zero]; linarith), if_pos (ldlt1_success _)]
  refine ⟨⟨by show (2 : Int) ≤ 30; norm_num, by show (2 : Int) ≤ 50; norm_num, by show (1 : Int) ≤ 20; norm_num,
    by show (2 : Int) ≤ 200; norm_num⟩, e0, e1, ?_, round_ones, ?_, hf, rfl, ?_, ?_, ?_, feasible ws, ?_⟩
  · rw [norm0.le htl]; norm_num; linarith
  · rintro (h | h)
    · exact absurd ((norm0.lt norm0).1 h.2) (lt_irrefl _)
    · have := (innerNorm0.le h12).1 h
      norm_num at this
      linarith
  · have hm0 : Core.mZero E (Alg.insertMerit (Core.Resid.merit (Core.Resid.negate
        (E.innerRes x0 x0 E.opts.sigma0))) (Vec.const 0)) (Core.Resid.merit (Core.Resid.negate
        (E.innerRes x0 x0 E.opts.sigma0))) = Core.Resid.merit (Core.Resid.negate
        (E.innerRes x0 x0 E.opts.sigma0)) := by
      have := merit0
      generalize Core.Resid.merit (Core.Resid.negate (E.innerRes x0 x0 E.opts.sigma0)) = cm at this
      have e : Core.mZero E (Alg.insertMerit cm (Vec.const 0)) cm = cmax (cmax (cmax (cmax cm 0) 0) 0) 0 := rfl
      have k : cmax cm 0 = cm := if_neg (by rw [this.lt Is.zero]; norm_num)
      rw [e, k, k, k, k]
    rw [hm0]
    obtain ⟨p, hp, p1⟩ := mulC (two.mul_one Is.one) het (by norm_num; linarith) (by norm_num; linarith)
    norm_num at p1
    obtain ⟨q, hq, r1⟩ := mulC hp merit0 (by norm_num; linarith) (by norm_num; linarith)
    norm_num at r1
    obtain ⟨r, hr, w1⟩ := subC merit0 hq (by norm_num; linarith) (by norm_num; linarith)
    norm_num at w1
    have nn1 : 1 / 2000000 ≤ n1 * n1 := by nlinarith
    have nn2 : n1 * n1 ≤ 1 := by nlinarith
    obtain ⟨u, hu, u1⟩ := mulC half hn1 (by norm_num; linarith) (by norm_num; linarith)
    norm_num at u1
    have uu1 : 1 / 10000000 ≤ u * n1 := by nlinarith
    have uu2 : u * n1 ≤ 1 := by nlinarith
    obtain ⟨w, hw, x1⟩ := mulC hu hn1 (by norm_num; linarith) (by norm_num; linarith)
    norm_num at x1
    have g : Is (Core.Resid.merit (E.innerRes Drift.x1 x0 E.opts.sigma0)) w := hw
    have g' : Is (2.0 * 1 * E.opts.eta * Core.Resid.merit (Core.Resid.negate (E.innerRes x0 x0 E.opts.sigma0))) q := hq
    refine (g.le hr).2 ?_
    linarith
  · rw [hn1.le i1]; linarith
  · rw [(norm_zero at1).lt norm0]; positivity
  · rw [(norm_zero at_proj).le htl]; exact tl0

theorem sqrtC {x : Binary64} {a : ℝ} (h : Is x a) (h0 : 1 ≤ a) (h1 : a ≤ 10 ^ 20) :
    ∃ c, Is (Scalar.sqrt x) c ∧ √a - 1 / 10 ^ 15 * √a ≤ c ∧ c ≤ √a + 1 / 10 ^ 15 * √a := by
  have p1 : 1 ≤ √a := Real.le_sqrt_of_sq_le (by linarith)
  have p2 : √a ≤ 10 ^ 10 := by rw [Real.sqrt_le_left (by norm_num)]; norm_num at h1 ⊢; exact h1
  obtain ⟨c, hc, k⟩ := h.sqrt_close (two500.1.trans (le_trans (by norm_num) p1))
    (le_trans (p2.trans (by norm_num)) two500.2)
  rw [abs_le] at k
  norm_num at k ⊢
  exact ⟨c, hc, by linarith [k.1], by linarith [k.2]⟩

/-- The residual of the returned point, evaluated with its margin `-8`. -/
theorem residual_again {x : Point Binary64 1 0 1} (h : At x 0 0 (-8)) :
    ∃ r, Is (Core.Resid.norm (E.penRes x)) r ∧ 7 ≤ r := by
  obtain ⟨a, ha, a1, a2⟩ := alpha
  norm_num at a1 a2
  rw [penRes1 E offsetData hE]
  have hmin := h.y.cmin h.v
  rw [min_eq_left (by norm_num)] at hmin
  have e0 : Is (cmax 0 (x.y 0)) 0 := by
    have := Is.zero.cmax h.y
    rw [max_eq_left (by norm_num)] at this
    exact this
  have e1 : Is (cmax 0 (x.v 0)) 0 := by
    have := Is.zero.cmax h.v
    rw [max_self] at this
    exact this
  obtain ⟨o, ho, -⟩ := subC Is.one ha (by norm_num; linarith) (by norm_num; linarith)
  have ho' : Is (1 - E.opts.alpha) o := ho
  have r8 : Representable (a * -8) := by
    obtain ⟨m, e, hm, he, hx, lt⟩ := ha.rep
    refine ⟨-m, e + 3, by rw [abs_neg]; exact hm, by omega, ?_, ?_⟩
    · rw [hx, zpow_add₀ (by norm_num)]; push_cast; norm_num; ring
    · rw [abs_mul, abs_of_nonneg (by linarith : 0 ≤ a)]
      have : |(-8 : ℝ)| = 8 := by norm_num
      rw [this]
      have k : (2 : ℝ) ^ (3 : ℤ) < (2 : ℝ) ^ (1024 : ℤ) := zpow_lt_zpow_right₀ (by norm_num) (by norm_num)
      refine lt_trans ?_ k
      norm_num
      linarith
  have hc : Is (E.opts.alpha * cmin (x.y 0) (x.v 0) + (1 - E.opts.alpha) * cmax 0 (x.y 0) * cmax 0 (x.v 0))
      (a * -8) := (Is.mul ha hmin rfl r8).add_zero ((ho'.mul_zero e0).mul_zero e1)
  have hg := grad_zero h
  generalize (E.opts.alpha * cmin (x.y 0) (x.v 0) + (1 - E.opts.alpha) * cmax 0 (x.y 0) * cmax 0 (x.v 0)) = t at hc
  generalize grad1 (offsetData.H 0 0) (offsetData.f 0) (offsetData.A 0 0) (x.z 0) (x.v 0) = t' at hg
  have q1 : 56 ≤ a * -8 * (a * -8) := by nlinarith
  have q2 : a * -8 * (a * -8) ≤ 64 := by nlinarith
  obtain ⟨p, hp, p1⟩ := mulC hc hc (by norm_num at q1 ⊢; linarith) (by norm_num at q2 ⊢; linarith)
  norm_num at p1 q1 q2
  have p2 : 55 ≤ p := by linarith
  have p3 : p ≤ 65 := by linarith
  obtain ⟨w, hw, w1⟩ := sqrtC (Is.zero.zero_add hp) (by linarith) (by norm_num; linarith)
  have w2 : 74 / 10 ≤ √p := Real.le_sqrt_of_sq_le (by norm_num; linarith)
  have w3 : √p ≤ 9 := by rw [Real.sqrt_le_left (by norm_num)]; norm_num; linarith
  norm_num at w1
  have w4 : 73 / 10 ≤ w := by linarith
  have w5 : w ≤ 10 := by linarith
  have q3 : 53 ≤ w * w := by nlinarith
  have q4 : w * w ≤ 100 := by nlinarith
  obtain ⟨o, ho, o1⟩ := mulC hw hw (by norm_num; linarith) (by norm_num; linarith)
  norm_num at o1
  have z0 : Is (Scalar.sqrt (0 : Binary64)) 0 := Is.zero.sqrt le_rfl (by norm_num) representable_zero
  have z1 := (Is.zero.zero_add (hg.mul_zero hg)).sqrt le_rfl (by norm_num) representable_zero
  obtain ⟨r, hr, r1⟩ := sqrtC (((z1.mul_zero z1).zero_add (z0.mul_zero z0)).zero_add ho) (by linarith)
    (by norm_num; linarith)
  have r2 : 72 / 10 ≤ √o := Real.le_sqrt_of_sq_le (by norm_num; linarith)
  norm_num at r1
  exact ⟨r, hr, by linarith⟩

theorem reads : rounding.ReadsDense offsetData offsetQP where
  H i j := by
    obtain rfl : i = 0 := Subsingleton.elim _ _
    obtain rfl : j = 0 := Subsingleton.elim _ _
    exact dH.toReal
  f i := by
    obtain rfl : i = 0 := Subsingleton.elim _ _
    exact df.toReal
  G i := i.elim0
  h i := i.elim0
  A i j := by
    obtain rfl : i = 0 := Subsingleton.elim _ _
    obtain rfl : j = 0 := Subsingleton.elim _ _
    exact dA.toReal
  b i := by
    obtain rfl : i = 0 := Subsingleton.elim _ _
    exact db.toReal

theorem fits : DenseFits 1 0 1 offsetProblem offsetGuess := by
  constructor <;> rfl

/-- The run. -/
theorem run (junk : DenseJunk Binary64) : ∃ E0,
    ((roundSolver junk).solve offsetProblem offsetGuess).result = .ok
      ⟨.success, Core.Resid.norm (E.penRes (Core.projectDuals x1)), 1, 1, E0⟩ ∧
    ((roundSolver junk).solve offsetProblem offsetGuess).x = .ofPoint false (Core.projectDuals x1) := by
  have hf : DenseFits (roundSolver junk).nz (roundSolver junk).nl (roundSolver junk).nv offsetProblem offsetGuess :=
    fits
  obtain ⟨t0, t1, g, hs⟩ := oneStep (junk.feas 1 0 1)
  have hc := FBstabDense.solve_computes hf
  obtain ⟨h1, h2, -⟩ := hc.ok _ (Core.OneStep.run (E := E) (ws := junk.feas 1 0 1) hs) (fun h => by cases h)
  exact ⟨_, h1, h2⟩

/-- The margin of the returned point. -/
theorem again (x : CallerVar Binary64) (b : Bool) (h : x = .ofPoint b (Core.projectDuals x1)) :
    At (x.guess offsetData.ops) 0 0 (-8) := by
  subst h
  have hz : Is ((CallerVar.ofPoint b (Core.projectDuals x1)).z.toVec 1 0) 0 := at_proj.z
  refine ⟨hz, at_proj.v, ?_⟩
  have := start1 E offsetData hE ((CallerVar.ofPoint b (Core.projectDuals x1)).z.toVec 1) (Vec.const 0) (Vec.const 0)
  have e : ((CallerVar.ofPoint b (Core.projectDuals x1)).guess offsetData.ops).y 0 = _ := this
  rw [e]
  exact (Is.zero.zero_add ((minusOne.neg_one_mul dA).mul_zero hz)).zero_add
    (Is.one.one_mul (Is.zero.zero_add (Is.one.one_mul db)))

end Drift

/-- C65, why the theorem above needs `out.proxIters = 0`: in IEEE double precision SUCCESS with residual 0 and the
default options does not imply that the constraints hold.  On `min 2^29 z^2 s.t. 2^41 z <= -8`, a new solver
started from `z = -2^17`, `v = 0` reports SUCCESS with residual 0 after one iteration and returns `z = 0` with
`y = 8`, although the margin `b - A z` is `-8`; the residual of the returned variables, evaluated anew, is above 7. -/
theorem C65_not_dense (junk : DenseJunk Binary64) :
    rounding.ReadsDense (offsetProblem.toData 1 0 1) offsetQP ∧
    ∃ s, FBstabDense.new junk 1 0 1 = .ok s ∧ ∃ out, (s.solve offsetProblem offsetGuess).result = .ok out ∧
      out.eflag = .success ∧ rounding.toReal out.residual = some 0 ∧ out.proxIters = 1 ∧ out.newtonIters = 1 ∧
      let xr := (s.solve offsetProblem offsetGuess).x
      rounding.Reads (xr.point 1 0 1).z (fun _ => 0) ∧ rounding.Reads (xr.point 1 0 1).v (fun _ => 0) ∧
      rounding.Reads (xr.point 1 0 1).y (fun _ => 8) ∧
      (∀ i, offsetQP.b i - (offsetQP.A.mulVec fun _ => 0) i = -8) ∧
      ∃ r, rounding.toReal (residualNorm (offsetProblem.toData 1 0 1).ops s.options.alpha
        (xr.guess (offsetProblem.toData 1 0 1).ops)) = some r ∧ 7 ≤ r := by
  refine ⟨Drift.reads, roundSolver junk, FBstabDense.new_ok junk (by norm_num) (by norm_num) (by decide), ?_⟩
  obtain ⟨E0, h1, h2⟩ := Drift.run junk
  refine ⟨_, h1, rfl, (Drift.norm_zero Drift.at_proj).toReal, rfl, rfl, ?_⟩
  intro xr
  have e : xr = .ofPoint false (Core.projectDuals Drift.x1) := h2
  have hp : xr.point 1 0 1 = Core.projectDuals Drift.x1 := by rw [e]; exact CallerVar.point_ofPoint _ _
  rw [hp]
  refine ⟨?_, ?_, ?_, ?_, ?_⟩
  · intro i
    obtain rfl : i = 0 := Subsingleton.elim _ _
    exact Drift.at_proj.z.toReal
  · intro i
    obtain rfl : i = 0 := Subsingleton.elim _ _
    exact Drift.at_proj.v.toReal
  · intro i
    obtain rfl : i = 0 := Subsingleton.elim _ _
    exact Drift.at_proj.y.toReal
  · intro i
    simp [offsetQP, Matrix.mulVec, dotProduct]
  · obtain ⟨r, hr, h7⟩ := Drift.residual_again (Drift.again xr false e)
    exact ⟨r, hr.toReal, h7⟩

end Fbstab
