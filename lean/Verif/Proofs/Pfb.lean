import Verif.Spec.Gradient
import Verif.Proofs.Newton
import Mathlib.Analysis.SpecialFunctions.Sqrt
import Mathlib.Analysis.SpecificLimits.Basic
import Mathlib.Analysis.Calculus.Deriv.Add
import Mathlib.Analysis.Calculus.Deriv.Mul
import Mathlib.Analysis.Calculus.Deriv.Pow
import Mathlib.Analysis.Calculus.Deriv.Prod
import Mathlib.Analysis.Calculus.Deriv.Slope

/-!
# The penalized Fischer-Burmeister function is differentiable, and its gradient
-/

namespace Fbstab
open Matrix Topology Filter

/-- The gradient away from the kinks. -/
noncomputable def pfbGrad (alpha a b : ℝ) : ℝ × ℝ :=
  if 0 < a ∧ 0 < b then
    (alpha * (1 - a / √(a * a + b * b)) + (1 - alpha) * b,
      alpha * (1 - b / √(a * a + b * b)) + (1 - alpha) * a)
  else (alpha * (1 - a / √(a * a + b * b)), alpha * (1 - b / √(a * a + b * b)))

theorem pfbGradient_eq {alpha a b : ℝ} (h : 1e-13 ≤ √(a * a + b * b)) :
    pfbGradient alpha a b = pfbGrad alpha a b := by
  unfold pfbGradient pfbGrad
  simp only [scalar_sqrt]
  rw [if_neg (not_lt.2 h)]

theorem pfb_hasGradient (alpha : ℝ) {a b : ℝ} (h0 : a * a + b * b ≠ 0)
    (ha : ¬(a = 0 ∧ 0 < b)) (hb : ¬(0 < a ∧ b = 0)) :
    HasGradient (fun a b => pfb a b alpha) (pfbGrad alpha a b) a b := by
  unfold HasGradient
  have d1 : HasFDerivAt (fun p : ℝ × ℝ => p.1) (ContinuousLinearMap.fst ℝ ℝ ℝ) (a, b) :=
    hasFDerivAt_fst
  have d2 : HasFDerivAt (fun p : ℝ × ℝ => p.2) (ContinuousLinearMap.snd ℝ ℝ ℝ) (a, b) :=
    hasFDerivAt_snd
  have dr := ((d1.mul d1).add (d2.mul d2)).sqrt h0
  have dfb := ((d1.add d2).sub dr).const_mul alpha
  have key : ∀ {pp : ℝ × ℝ → ℝ} {g : ℝ × ℝ},
      HasFDerivAt pp (g.1 • ContinuousLinearMap.fst ℝ ℝ ℝ + g.2 • ContinuousLinearMap.snd ℝ ℝ ℝ) (a, b) →
      pp =ᶠ[𝓝 (a, b)] (fun p : ℝ × ℝ => (1 - alpha) * cmax 0 p.1 * cmax 0 p.2) →
      HasFDerivAt (fun p : ℝ × ℝ => pfb p.1 p.2 alpha)
        ((alpha * (1 - a / √(a * a + b * b)) + g.1) • ContinuousLinearMap.fst ℝ ℝ ℝ +
          (alpha * (1 - b / √(a * a + b * b)) + g.2) • ContinuousLinearMap.snd ℝ ℝ ℝ) (a, b) := by
    intro pp g hpp he
    refine ((dfb.add (hpp.congr_of_eventuallyEq he.symm)).congr_fderiv ?_).congr_of_eventuallyEq
      (Eventually.of_forall fun p => rfl)
    have hr : √(a * a + b * b) ≠ 0 := by
      intro h
      rw [Real.sqrt_eq_zero (by nlinarith [mul_self_nonneg a, mul_self_nonneg b])] at h
      exact h0 h
    ext
    · simp
      left
      field_simp
      ring
    · simp
      left
      field_simp
      ring
  unfold pfbGrad
  by_cases hab : 0 < a ∧ 0 < b
  · rw [if_pos hab]
    have hpp : HasFDerivAt (fun p : ℝ × ℝ => (1 - alpha) * (p.1 * p.2))
        (((1 - alpha) * b, (1 - alpha) * a).1 • ContinuousLinearMap.fst ℝ ℝ ℝ +
          ((1 - alpha) * b, (1 - alpha) * a).2 • ContinuousLinearMap.snd ℝ ℝ ℝ) (a, b) := by
      refine ((d1.mul d2).const_mul (1 - alpha)).congr_fderiv ?_
      ext <;> simp
    refine key hpp ?_
    have e1 : ∀ᶠ p : ℝ × ℝ in 𝓝 (a, b), 0 < p.1 := continuousAt_fst.eventually (lt_mem_nhds hab.1)
    have e2 : ∀ᶠ p : ℝ × ℝ in 𝓝 (a, b), 0 < p.2 := continuousAt_snd.eventually (lt_mem_nhds hab.2)
    filter_upwards [e1, e2] with p h1 h2
    rw [cmax_eq_max, cmax_eq_max, max_eq_right h1.le, max_eq_right h2.le]
    ring
  · rw [if_neg hab]
    have hneg : a < 0 ∨ b < 0 := by
      by_contra hcon
      rw [not_or, not_lt, not_lt] at hcon
      rcases hcon.1.lt_or_eq with h | h
      · rcases hcon.2.lt_or_eq with h' | h'
        · exact hab ⟨h, h'⟩
        · exact hb ⟨h, h'.symm⟩
      · rcases hcon.2.lt_or_eq with h' | h'
        · exact ha ⟨h.symm, h'⟩
        · exact h0 (by rw [← h, ← h']; ring)
    have hpp : HasFDerivAt (fun _ : ℝ × ℝ => (0 : ℝ))
        (((0 : ℝ), (0 : ℝ)).1 • ContinuousLinearMap.fst ℝ ℝ ℝ +
          ((0 : ℝ), (0 : ℝ)).2 • ContinuousLinearMap.snd ℝ ℝ ℝ) (a, b) := by
      refine (hasFDerivAt_const (0 : ℝ) (a, b)).congr_fderiv ?_
      ext <;> simp
    have := key hpp ?_
    · simpa only [add_zero] using this
    · rcases hneg with h | h
      · have e1 : ∀ᶠ p : ℝ × ℝ in 𝓝 (a, b), p.1 < 0 := continuousAt_fst.eventually (gt_mem_nhds h)
        filter_upwards [e1] with p h1
        rw [cmax_eq_max, max_eq_left h1.le]; ring
      · have e1 : ∀ᶠ p : ℝ × ℝ in 𝓝 (a, b), p.2 < 0 := continuousAt_snd.eventually (gt_mem_nhds h)
        filter_upwards [e1] with p h1
        rw [cmax_eq_max, cmax_eq_max, max_eq_left h1.le]; ring

theorem add_sq_ne_zero {a b : ℝ} (h : a ≠ 0 ∨ b ≠ 0) : a * a + b * b ≠ 0 := by
  intro e
  have h1 := mul_self_nonneg a
  have h2 := mul_self_nonneg b
  rcases h with h | h
  · exact h (mul_self_eq_zero.1 (by linarith))
  · exact h (mul_self_eq_zero.1 (by linarith))

theorem tendsto_neg_inv : Tendsto (fun n : ℕ => -(1 / ((n : ℝ) + 1))) atTop (𝓝 0) := by
  have := tendsto_one_div_add_atTop_nhds_zero_nat (𝕜 := ℝ)
  simpa using this.neg

theorem inv_succ_pos (n : ℕ) : 0 < 1 / ((n : ℝ) + 1) := by positivity

/-- Limits of the gradient from a side where a coordinate is negative. -/
theorem tendsto_grad {alpha a b : ℝ} (h0 : a * a + b * b ≠ 0) {p : ℕ → ℝ × ℝ}
    (hp : Tendsto p atTop (𝓝 (a, b))) :
    Tendsto (fun n => (alpha * (1 - (p n).1 / √((p n).1 * (p n).1 + (p n).2 * (p n).2)),
      alpha * (1 - (p n).2 / √((p n).1 * (p n).1 + (p n).2 * (p n).2)))) atTop
      (𝓝 (alpha * (1 - a / √(a * a + b * b)), alpha * (1 - b / √(a * a + b * b)))) := by
  have hr : √(a * a + b * b) ≠ 0 := by
    intro h
    rw [Real.sqrt_eq_zero (by nlinarith [mul_self_nonneg a, mul_self_nonneg b])] at h
    exact h0 h
  have h1 : Tendsto (fun n => (p n).1) atTop (𝓝 a) := (continuous_fst.tendsto _).comp hp
  have h2 : Tendsto (fun n => (p n).2) atTop (𝓝 b) := (continuous_snd.tendsto _).comp hp
  have h3 : Tendsto (fun n => √((p n).1 * (p n).1 + (p n).2 * (p n).2)) atTop
      (𝓝 (√(a * a + b * b))) := ((h1.mul h1).add (h2.mul h2)).sqrt
  exact ((((h1.div h3 hr).const_sub 1).const_mul alpha)).prodMk_nhds
    (((h2.div h3 hr).const_sub 1).const_mul alpha)

/-- Away from the origin the slopes are a limit of gradients. -/
theorem pfbGrad_limiting (alpha : ℝ) {a b : ℝ} (h0 : a * a + b * b ≠ 0) :
    LimitingGradient (fun a b => pfb a b alpha) (pfbGrad alpha a b) a b := by
  by_cases ha : a = 0 ∧ 0 < b
  · have hp : Tendsto (fun n : ℕ => (-(1 / ((n : ℝ) + 1)), b)) atTop (𝓝 (a, b)) := by
      rw [ha.1]; exact tendsto_neg_inv.prodMk_nhds tendsto_const_nhds
    refine ⟨_, fun n => pfbGrad alpha (-(1 / ((n : ℝ) + 1))) b, hp, fun n => ?_, ?_⟩
    · have := inv_succ_pos n
      exact pfb_hasGradient alpha (add_sq_ne_zero (.inr ha.2.ne')) (fun h => by linarith [h.1])
        (fun h => by linarith [h.1])
    · have := tendsto_grad (alpha := alpha) h0 hp
      unfold pfbGrad
      rw [if_neg (fun h => by rw [ha.1] at h; exact lt_irrefl _ h.1)]
      refine this.congr fun n => ?_
      have := inv_succ_pos n
      rw [if_neg (fun h => by linarith [h.1])]
  · by_cases hb : 0 < a ∧ b = 0
    · have hp : Tendsto (fun n : ℕ => (a, -(1 / ((n : ℝ) + 1)))) atTop (𝓝 (a, b)) := by
        rw [hb.2]; exact tendsto_const_nhds.prodMk_nhds tendsto_neg_inv
      refine ⟨_, fun n => pfbGrad alpha a (-(1 / ((n : ℝ) + 1))), hp, fun n => ?_, ?_⟩
      · have := inv_succ_pos n
        exact pfb_hasGradient alpha (add_sq_ne_zero (.inl hb.1.ne')) (fun h => by linarith [h.2])
          (fun h => by linarith [h.2])
      · have := tendsto_grad (alpha := alpha) h0 hp
        unfold pfbGrad
        rw [if_neg (fun h => by rw [hb.2] at h; exact lt_irrefl _ h.2)]
        refine this.congr fun n => ?_
        have := inv_succ_pos n
        rw [if_neg (fun h => by linarith [h.2])]
    · exact ⟨fun _ => (a, b), fun _ => pfbGrad alpha a b, tendsto_const_nhds,
        fun _ => pfb_hasGradient alpha h0 ha hb, tendsto_const_nhds⟩

/-- At the origin too. -/
theorem pfbGradient_limiting_zero (alpha : ℝ) :
    LimitingGradient (fun a b => pfb a b alpha) (pfbGradient alpha 0 0) 0 0 := by
  have ht := tendsto_one_div_add_atTop_nhds_zero_nat (𝕜 := ℝ)
  refine ⟨fun n => (1 / ((n : ℝ) + 1), 1 / ((n : ℝ) + 1)),
    fun n => pfbGrad alpha (1 / ((n : ℝ) + 1)) (1 / ((n : ℝ) + 1)), ht.prodMk_nhds ht,
    fun n => ?_, ?_⟩
  · have := inv_succ_pos n
    exact pfb_hasGradient alpha (add_sq_ne_zero (.inl this.ne')) (fun h => this.ne' h.1)
      (fun h => this.ne' h.2)
  · have e : pfbGradient alpha 0 0 = (alpha * (1 - 1 / √2), alpha * (1 - 1 / √2)) := by
      unfold pfbGradient
      simp only [scalar_sqrt]
      rw [if_pos (by norm_num)]
      norm_num
    have e' : ∀ n : ℕ, pfbGrad alpha (1 / ((n : ℝ) + 1)) (1 / ((n : ℝ) + 1)) =
        (alpha * (1 - 1 / √2) + (1 - alpha) * (1 / ((n : ℝ) + 1)),
          alpha * (1 - 1 / √2) + (1 - alpha) * (1 / ((n : ℝ) + 1))) := by
      intro n
      have h := inv_succ_pos n
      generalize 1 / ((n : ℝ) + 1) = t at h
      unfold pfbGrad
      rw [if_pos ⟨h, h⟩]
      have : t / √(t * t + t * t) = 1 / √2 := by
        rw [← two_mul, Real.sqrt_mul (by norm_num), Real.sqrt_mul_self h.le]
        have : √(2 : ℝ) ≠ 0 := (Real.sqrt_pos.2 (by norm_num)).ne'
        field_simp
      rw [this]
    simp only [e, e']
    have h1 : Tendsto (fun n : ℕ => alpha * (1 - 1 / √2) + (1 - alpha) * (1 / ((n : ℝ) + 1))) atTop
        (𝓝 (alpha * (1 - 1 / √2))) := by
      simpa using (ht.const_mul (1 - alpha)).const_add (alpha * (1 - 1 / √2))
    exact h1.prodMk_nhds h1

/-! ## Descent -/

theorem HasGradient.path {F : ℝ → ℝ → ℝ} {g : ℝ × ℝ} {a b : ℝ} (h : HasGradient F g a b) (da db : ℝ) :
    HasDerivAt (fun t => F (a + t * da) (b + t * db)) (g.1 * da + g.2 * db) 0 := by
  have hp : HasDerivAt (fun t : ℝ => (a + t * da, b + t * db)) (da, db) 0 := by
    refine HasDerivAt.prodMk ?_ ?_
    · simpa using ((hasDerivAt_id (0 : ℝ)).mul_const da).const_add a
    · simpa using ((hasDerivAt_id (0 : ℝ)).mul_const db).const_add b
  unfold HasGradient at h
  have h' : HasFDerivAt (fun p : ℝ × ℝ => F p.1 p.2)
    (g.1 • ContinuousLinearMap.fst ℝ ℝ ℝ + g.2 • ContinuousLinearMap.snd ℝ ℝ ℝ)
    ((fun t : ℝ => (a + t * da, b + t * db)) 0) := by simpa using h
  have hd := h'.comp_hasDerivAt (0 : ℝ) hp
  refine HasDerivAt.congr_deriv hd ?_
  simp

theorem hasDerivAt_sum_sq {n : Nat} {r : Fin n → ℝ → ℝ} {c : Fin n → ℝ} (h0 : ∀ i, r i 0 = c i)
    (h : ∀ i, HasDerivAt (r i) (-(c i)) 0) :
    HasDerivAt (fun t => ∑ i, r i t ^ 2) (-(2 * ∑ i, c i ^ 2)) 0 := by
  have := HasDerivAt.fun_sum (u := Finset.univ) fun i (_ : i ∈ Finset.univ) => (h i).pow 2
  refine this.congr_deriv ?_
  rw [Finset.mul_sum, ← Finset.sum_neg_distrib]
  refine Finset.sum_congr rfl fun i _ => ?_
  rw [h0]
  simp
  ring

theorem hasDerivAt_affine (c : ℝ) : HasDerivAt (fun t : ℝ => c + t * -c) (-c) 0 := by
  simpa using ((hasDerivAt_id (0 : ℝ)).mul_const (-c)).const_add c

/-- Along the Newton direction the merit decreases at the rate of twice its value. -/
theorem QP.NewtonSystem.descent {nz nl nv : Nat} {q : QP nz nl nv} {phi : ℝ → ℝ → ℝ} {sigma : ℝ}
    {zb lb vb z l v dz dl dv} {g : Fin nv → ℝ × ℝ}
    (hg : ∀ i, HasGradient phi (g i) (q.b i - (q.A *ᵥ z) i + sigma * (v i - vb i)) (v i))
    (h : q.NewtonSystem sigma (fun i => (g i).1) (fun i => (g i).2)
      (-(q.lagrangeGrad z l v + sigma • (z - zb))) (-(q.h - q.G *ᵥ z + sigma • (l - lb)))
      (fun i => -phi (q.b i - (q.A *ᵥ z) i + sigma * (v i - vb i)) (v i)) dz dl dv) :
    HasDerivAt (fun t : ℝ => q.merit phi sigma zb lb vb (z + t • dz) (l + t • dl) (v + t • dv))
      (-(2 * q.merit phi sigma zb lb vb z l v)) 0 := by
  have hz := hasDerivAt_sum_sq
    (r := fun i t => q.lagrangeGrad (z + t • dz) (l + t • dl) (v + t • dv) i +
      sigma * ((z + t • dz) i - zb i))
    (c := fun i => q.lagrangeGrad z l v i + sigma * (z i - zb i)) (by simp) (by
      intro i
      have e := congrFun h.grad i
      simp only [Pi.add_apply, Pi.neg_apply, Pi.smul_apply, smul_eq_mul, Pi.sub_apply] at e
      refine (hasDerivAt_affine _).congr_of_eventuallyEq (Eventually.of_forall fun t => ?_)
      dsimp only
      rw [← e]
      simp only [lagrangeGrad, mulVec_add, mulVec_smul, Pi.add_apply, Pi.smul_apply, smul_eq_mul]
      ring)
  have hl := hasDerivAt_sum_sq
    (r := fun i t => q.h i - (q.G *ᵥ (z + t • dz)) i + sigma * ((l + t • dl) i - lb i))
    (c := fun i => q.h i - (q.G *ᵥ z) i + sigma * (l i - lb i)) (by simp) (by
      intro i
      have e := congrFun h.eq i
      simp only [Pi.add_apply, Pi.neg_apply, Pi.smul_apply, smul_eq_mul, Pi.sub_apply] at e
      refine (hasDerivAt_affine _).congr_of_eventuallyEq (Eventually.of_forall fun t => ?_)
      dsimp only
      rw [← e]
      simp only [mulVec_add, mulVec_smul, Pi.add_apply, Pi.smul_apply, smul_eq_mul]
      ring)
  have hv := hasDerivAt_sum_sq
    (r := fun i t => phi (q.b i - (q.A *ᵥ (z + t • dz)) i + sigma * ((v + t • dv) i - vb i))
      ((v + t • dv) i))
    (c := fun i => phi (q.b i - (q.A *ᵥ z) i + sigma * (v i - vb i)) (v i)) (by simp) (by
      intro i
      have e := h.compl i
      have hp := (hg i).path (-(q.A *ᵥ dz) i + sigma * dv i) (dv i)
      refine (hp.congr_deriv e).congr_of_eventuallyEq (Eventually.of_forall fun t => ?_)
      dsimp only
      simp only [mulVec_add, mulVec_smul, Pi.add_apply, Pi.smul_apply, smul_eq_mul]
      congr 1
      ring)
  have := ((hz.add hl).add hv).const_mul (1 / 2 : ℝ)
  refine (this.congr_deriv ?_).congr_of_eventuallyEq (Eventually.of_forall fun t => rfl)
  unfold QP.merit
  ring

/-- Small enough steps pass the sufficient decrease test. -/
theorem armijo_eventually {F : ℝ → ℝ} {m eta : ℝ} (hF : HasDerivAt F (-(2 * m)) 0) (h0 : F 0 = m)
    (hm : 0 < m) (heta : eta < 1) :
    ∀ᶠ t in 𝓝[>] (0 : ℝ), F t ≤ m - 2 * t * eta * m := by
  have h1 := hF.hasDerivWithinAt (s := Set.Ioi 0)
  rw [hasDerivWithinAt_iff_tendsto_slope' (by simp)] at h1
  have h2 : -(2 * m) < -(2 * eta * m) := by nlinarith
  filter_upwards [h1.eventually (gt_mem_nhds h2), self_mem_nhdsWithin] with t ht hpos
  have hpos : 0 < t := hpos
  rw [slope_def_field, sub_zero, div_lt_iff₀ hpos, h0] at ht
  linarith

end Fbstab
