import Verif.Spec.QP
import Verif.Proofs.Core
import Mathlib.Tactic.LinearCombination
import Mathlib.Tactic.Positivity

/-!
# Mathematics of quadratic programs and of the residual functions
-/

namespace Fbstab
open Matrix

/-! ## Euclidean norms -/

section
variable {n : Nat}

theorem dot_self_nonneg (x : Fin n → ℝ) : 0 ≤ x ⬝ᵥ x :=
  Finset.sum_nonneg fun i _ => mul_self_nonneg _

theorem dot_self_eq_zero {x : Fin n → ℝ} : x ⬝ᵥ x = 0 ↔ x = 0 := by
  constructor
  · intro h
    funext i
    have := (Finset.sum_eq_zero_iff_of_nonneg (fun i _ => mul_self_nonneg (x i))).1 h i
      (Finset.mem_univ i)
    exact mul_self_eq_zero.1 this
  · rintro rfl; simp

theorem euclid_nonneg (x : Fin n → ℝ) : 0 ≤ euclid x := Real.sqrt_nonneg _
theorem euclid_sq (x : Fin n → ℝ) : euclid x * euclid x = x ⬝ᵥ x :=
  Real.mul_self_sqrt (dot_self_nonneg x)
theorem euclid_eq_zero {x : Fin n → ℝ} : euclid x = 0 ↔ x = 0 := by
  rw [euclid, Real.sqrt_eq_zero (dot_self_nonneg x), dot_self_eq_zero]

/-- Cauchy-Schwarz. -/
theorem dot_le_euclid (x y : Fin n → ℝ) : x ⬝ᵥ y ≤ euclid x * euclid y := by
  have h : (x ⬝ᵥ y) ^ 2 ≤ (x ⬝ᵥ x) * (y ⬝ᵥ y) := by
    simp only [dotProduct]
    have := Finset.sum_mul_sq_le_sq_mul_sq Finset.univ x y
    simpa [sq] using this
  rw [euclid, euclid, ← Real.sqrt_mul (dot_self_nonneg x)]
  exact Real.le_sqrt_of_sq_le h

theorem abs_dot_le_euclid (x y : Fin n → ℝ) : |x ⬝ᵥ y| ≤ euclid x * euclid y := by
  rw [abs_le]
  refine ⟨?_, dot_le_euclid x y⟩
  have := dot_le_euclid (-x) y
  rw [neg_dotProduct] at this
  have e : euclid (-x) = euclid x := by simp [euclid]
  rw [e] at this
  linarith

theorem abs_le_euclid (x : Fin n → ℝ) (i : Fin n) : |x i| ≤ euclid x := by
  rw [euclid, ← Real.sqrt_sq_eq_abs]
  refine Real.sqrt_le_sqrt ?_
  rw [sq]
  exact Finset.single_le_sum (f := fun i => x i * x i) (fun i _ => mul_self_nonneg _)
    (Finset.mem_univ i)

theorem Vec.norm_eq_euclid (x : Vec ℝ n) : x.norm = euclid x.fn := by
  rw [Vec.norm, Vec.squaredNorm_eq, scalar_sqrt, euclid]
end

section
variable {nz nl nv : Nat}

theorem norm3_eq (z : Vec ℝ nz) (l : Vec ℝ nl) (v : Vec ℝ nv) :
    norm3 z l v = √(z.fn ⬝ᵥ z.fn + l.fn ⬝ᵥ l.fn + v.fn ⬝ᵥ v.fn) := by
  simp only [norm3, Vec.norm_eq_euclid, euclid_sq, scalar_sqrt]

theorem norm3_nonneg (z : Vec ℝ nz) (l : Vec ℝ nl) (v : Vec ℝ nv) : 0 ≤ norm3 z l v := by
  rw [norm3_eq]; exact Real.sqrt_nonneg _

theorem norm3_sq (z : Vec ℝ nz) (l : Vec ℝ nl) (v : Vec ℝ nv) :
    norm3 z l v ^ 2 = z.fn ⬝ᵥ z.fn + l.fn ⬝ᵥ l.fn + v.fn ⬝ᵥ v.fn := by
  rw [norm3_eq, Real.sq_sqrt]
  have := dot_self_nonneg z.fn
  have := dot_self_nonneg l.fn
  have := dot_self_nonneg v.fn
  positivity

theorem norm3_eq_zero {z : Vec ℝ nz} {l : Vec ℝ nl} {v : Vec ℝ nv} :
    norm3 z l v = 0 ↔ z.fn = 0 ∧ l.fn = 0 ∧ v.fn = 0 := by
  have hz := dot_self_nonneg z.fn
  have hl := dot_self_nonneg l.fn
  have hv := dot_self_nonneg v.fn
  rw [norm3_eq, Real.sqrt_eq_zero (by positivity)]
  rw [← dot_self_eq_zero, ← dot_self_eq_zero (x := l.fn), ← dot_self_eq_zero (x := v.fn)]
  constructor
  · intro h; refine ⟨?_, ?_, ?_⟩ <;> linarith
  · rintro ⟨h1, h2, h3⟩; rw [h1, h2, h3]; ring

theorem norm3_bounds {z : Vec ℝ nz} {l : Vec ℝ nl} {v : Vec ℝ nv} {e : ℝ} (h : norm3 z l v ≤ e) :
    euclid z.fn ≤ e ∧ euclid l.fn ≤ e ∧ euclid v.fn ≤ e := by
  have hz := dot_self_nonneg z.fn
  have hl := dot_self_nonneg l.fn
  have hv := dot_self_nonneg v.fn
  rw [norm3_eq] at h
  refine ⟨le_trans (Real.sqrt_le_sqrt ?_) h, le_trans (Real.sqrt_le_sqrt ?_) h,
    le_trans (Real.sqrt_le_sqrt ?_) h⟩ <;> linarith

end

/-! ## Complementarity functions -/

theorem penalizedMin_zero {alpha y v : ℝ} (h0 : 0 < alpha) (h1 : alpha < 1) :
    alpha * min y v + (1 - alpha) * max 0 y * max 0 v = 0 ↔ 0 ≤ y ∧ 0 ≤ v ∧ (v = 0 ∨ y = 0) := by
  constructor
  · intro h
    by_cases hy : 0 ≤ y
    · by_cases hv : 0 ≤ v
      · refine ⟨hy, hv, ?_⟩
        rw [max_eq_right hy, max_eq_right hv] at h
        have h2 : 0 ≤ (1 - alpha) * y * v := by
          have : 0 ≤ 1 - alpha := by linarith
          positivity
        have h3 : 0 ≤ min y v := le_min hy hv
        have h4 : alpha * min y v = 0 := by
          have : 0 ≤ alpha * min y v := by positivity
          linarith
        have h5 : min y v = 0 := by
          rcases mul_eq_zero.1 h4 with h | h
          · linarith
          · exact h
        rcases min_choice y v with h6 | h6
        · right; linarith
        · left; linarith
      · exfalso
        rw [max_eq_left (not_le.1 hv).le] at h
        have : min y v < 0 := lt_of_le_of_lt (min_le_right _ _) (not_le.1 hv)
        have := mul_neg_of_pos_of_neg h0 this
        linarith
    · exfalso
      rw [max_eq_left (not_le.1 hy).le] at h
      have : min y v < 0 := lt_of_le_of_lt (min_le_left _ _) (not_le.1 hy)
      have := mul_neg_of_pos_of_neg h0 this
      linarith
  · rintro ⟨hy, hv, rfl | rfl⟩
    · simp [hy]
    · simp [hv]

/-- A small penalized residual bounds the violation, the negative part of the multiplier and their
minimum. -/
theorem penalizedMin_bound {alpha y v e : ℝ} (h0 : 0 < alpha) (h1 : alpha < 1)
    (h : |alpha * min y v + (1 - alpha) * max 0 y * max 0 v| ≤ e) : |min y v| ≤ e / alpha := by
  have e0 : 0 ≤ e := le_trans (abs_nonneg _) h
  rw [le_div_iff₀ h0]
  by_cases hm : 0 ≤ min y v
  · have hp : 0 ≤ (1 - alpha) * max 0 y * max 0 v := by
      have : 0 ≤ 1 - alpha := by linarith
      have := le_max_left 0 y
      have := le_max_left 0 v
      positivity
    rw [abs_of_nonneg hm]
    have := le_trans (le_abs_self _) h
    nlinarith
  · have hp : max 0 y * max 0 v = 0 := by
      rcases le_total y v with hyv | hyv
      · rw [min_eq_left hyv] at hm
        rw [max_eq_left (not_le.1 hm).le, zero_mul]
      · rw [min_eq_right hyv] at hm
        rw [max_eq_left (not_le.1 hm).le, mul_zero]
    rw [mul_assoc, hp, mul_zero, add_zero, abs_mul, abs_of_pos h0] at h
    linarith

/-- ... and the complementarity product, when both are nonnegative. -/
theorem penalizedMin_product {alpha y v e : ℝ} (h0 : 0 < alpha) (h1 : alpha < 1) (hv : 0 ≤ v)
    (h : |alpha * min y v + (1 - alpha) * max 0 y * max 0 v| ≤ e) : v * y ≤ e / (1 - alpha) := by
  have e0 : 0 ≤ e := le_trans (abs_nonneg _) h
  have ha : 0 < 1 - alpha := by linarith
  by_cases hy : 0 ≤ y
  · rw [max_eq_right hv, max_eq_right hy] at h
    rw [le_div_iff₀ ha]
    have h3 : 0 ≤ alpha * min y v := mul_nonneg h0.le (le_min hy hv)
    have := le_trans (le_abs_self _) h
    nlinarith
  · have : v * y ≤ 0 := mul_nonpos_of_nonneg_of_nonpos hv (not_le.1 hy).le
    have : 0 ≤ e / (1 - alpha) := by positivity
    linarith

theorem pfb_real (a b alpha : ℝ) :
    pfb a b alpha = alpha * (a + b - √(a * a + b * b)) + (1 - alpha) * max 0 a * max 0 b := by
  simp [pfb]

theorem pfb_zero {alpha a b : ℝ} (h0 : 0 < alpha) (h1 : alpha < 1) :
    pfb a b alpha = 0 ↔ 0 ≤ a ∧ 0 ≤ b ∧ (b = 0 ∨ a = 0) := by
  rw [pfb_real]
  have hs : √(a * a + b * b) * √(a * a + b * b) = a * a + b * b :=
    Real.mul_self_sqrt (by nlinarith [mul_self_nonneg a, mul_self_nonneg b])
  have hs0 := Real.sqrt_nonneg (a * a + b * b)
  have ha' : 0 < 1 - alpha := by linarith
  constructor
  · intro h
    by_cases ha : 0 ≤ a
    · by_cases hb : 0 ≤ b
      · refine ⟨ha, hb, ?_⟩
        rw [max_eq_right ha, max_eq_right hb] at h
        have hab : 0 ≤ a * b := mul_nonneg ha hb
        have h2 : √(a * a + b * b) ≤ a + b := by
          rw [Real.sqrt_le_left (by linarith)]; nlinarith
        have h3 : 0 ≤ alpha * (a + b - √(a * a + b * b)) := mul_nonneg h0.le (by linarith)
        have h4 : (1 - alpha) * (a * b) = 0 := by
          have : 0 ≤ (1 - alpha) * (a * b) := by positivity
          nlinarith
        rcases mul_eq_zero.1 h4 with h | h
        · linarith
        · exact (mul_eq_zero.1 h).symm
      · exfalso
        rw [max_eq_left (not_le.1 hb).le, mul_zero, add_zero] at h
        have h2 : a ≤ √(a * a + b * b) := Real.le_sqrt_of_sq_le (by nlinarith [mul_self_nonneg b])
        have := not_le.1 hb
        rcases mul_eq_zero.1 h with h | h <;> linarith
    · exfalso
      rw [max_eq_left (not_le.1 ha).le, mul_zero, zero_mul, add_zero] at h
      have h2 : b ≤ √(a * a + b * b) := Real.le_sqrt_of_sq_le (by nlinarith [mul_self_nonneg a])
      have := not_le.1 ha
      rcases mul_eq_zero.1 h with h | h <;> linarith
  · rintro ⟨ha, hb, rfl | rfl⟩
    · simp [ha, Real.sqrt_mul_self]
    · simp [hb, Real.sqrt_mul_self]

/-! ## Residual functions of an implementation -/

namespace QP.Implements
variable {nz nl nv : Nat} {q : QP nz nl nv} {ops : QPOps ℝ nz nl nv} (I : q.Implements ops)
include I

theorem margin (z : Vec ℝ nz) : (margin ops z).fn = q.b - q.A *ᵥ z.fn := by
  rw [Fbstab.margin, I.gemvA, I.axpyb]
  ext i; simp; ring

theorem gradLagrangian (z : Vec ℝ nz) (l : Vec ℝ nl) (v : Vec ℝ nv) :
    (gradLagrangian ops z l v).fn = q.lagrangeGrad z.fn l.fn v.fn := by
  rw [Fbstab.gradLagrangian, I.gemvAT, I.gemvGT, I.gemvH, I.axpyf]
  ext i; simp [QP.lagrangeGrad]; ring

theorem eqDefect (z : Vec ℝ nz) : (eqDefect ops z).fn = q.h - q.G *ᵥ z.fn := by
  rw [Fbstab.eqDefect, I.gemvG, I.axpyh]
  ext i; simp; ring

theorem residualNorm_sq (alpha : ℝ) (x : Point ℝ nz nl nv) :
    residualNorm ops alpha x ^ 2 = q.lagrangeGrad x.z.fn x.l.fn x.v.fn ⬝ᵥ
        q.lagrangeGrad x.z.fn x.l.fn x.v.fn +
      (q.h - q.G *ᵥ x.z.fn) ⬝ᵥ (q.h - q.G *ᵥ x.z.fn) +
      (penalizedMin alpha x.y x.v).fn ⬝ᵥ (penalizedMin alpha x.y x.v).fn := by
  rw [residualNorm, norm3_sq, I.gradLagrangian, I.eqDefect]

/-- Zero residual is the KKT conditions. -/
theorem residualNorm_eq_zero {alpha : ℝ} (h0 : 0 < alpha) (h1 : alpha < 1) {x : Point ℝ nz nl nv}
    (hy : x.y.fn = q.b - q.A *ᵥ x.z.fn) :
    residualNorm ops alpha x = 0 ↔ q.KKT x.z.fn x.l.fn x.v.fn := by
  have hyi : ∀ i, x.y i = q.b i - (q.A *ᵥ x.z.fn) i := fun i => congrFun hy i
  rw [residualNorm, norm3_eq_zero, I.gradLagrangian, I.eqDefect]
  have hv : (penalizedMin alpha x.y x.v).fn = 0 ↔
      ∀ i, 0 ≤ x.y i ∧ 0 ≤ x.v i ∧ (x.v i = 0 ∨ x.y i = 0) := by
    rw [funext_iff]
    refine forall_congr' fun i => ?_
    rw [← penalizedMin_zero h0 h1]
    simp [penalizedMin]
  rw [hv]
  constructor
  · rintro ⟨h2, h3, h4⟩
    refine ⟨h2, ⟨(sub_eq_zero.1 h3).symm, fun i => ?_⟩, fun i => (h4 i).2.1, fun i => ?_⟩
    · have := (h4 i).1
      rw [hyi] at this
      linarith
    · rcases (h4 i).2.2 with h | h
      · exact .inl h
      · rw [hyi] at h
        right; linarith
  · rintro ⟨h2, ⟨h3, h3'⟩, h4, h5⟩
    refine ⟨h2, by rw [h3, sub_self], fun i => ⟨?_, h4 i, ?_⟩⟩
    · rw [hyi]; linarith [h3' i]
    · rcases h5 i with h | h
      · exact .inl h
      · right; rw [hyi]; linarith

/-- Zero inner residual is the KKT system of the regularised problem. -/
theorem innerRes_eq_zero {E : Core.Env ℝ nz nl nv} (hE : E.ops = ops) {sigma : ℝ}
    (h0 : 0 < E.opts.alpha) (h1 : E.opts.alpha < 1)
    {x xbar : Point ℝ nz nl nv} (hy : x.y.fn = q.b - q.A *ᵥ x.z.fn) :
    Core.Resid.norm (E.innerRes x xbar sigma) = 0 ↔
      q.ProxKKT sigma xbar.z.fn xbar.l.fn xbar.v.fn x.z.fn x.l.fn x.v.fn := by
  have hyi : ∀ i, x.y i = q.b i - (q.A *ᵥ x.z.fn) i := fun i => congrFun hy i
  have e : Core.Resid.norm (E.innerRes x xbar sigma) =
    norm3 (E.innerRes x xbar sigma).z (E.innerRes x xbar sigma).l (E.innerRes x xbar sigma).v := rfl
  rw [e, norm3_eq_zero]
  simp only [Core.Env.innerRes, Core.mkResid, hE]
  rw [Vec.fn_add, Vec.fn_smul, Vec.fn_sub, I.gradLagrangian, Vec.fn_add, Vec.fn_smul, Vec.fn_sub,
    I.eqDefect]
  have hv : (Vec.ofFn fun i => pfb (x.y i + sigma * (x.v i - xbar.v i)) (x.v i) E.opts.alpha :
      Vec ℝ nv).fn = 0 ↔
      ∀ i, 0 ≤ x.y i + sigma * (x.v i - xbar.v i) ∧ 0 ≤ x.v i ∧
        (x.v i = 0 ∨ x.y i + sigma * (x.v i - xbar.v i) = 0) := by
    rw [funext_iff]
    refine forall_congr' fun i => ?_
    rw [← pfb_zero h0 h1]
    simp
  rw [hv]
  simp only [hyi]
  exact ⟨fun ⟨h2, h3, h4⟩ => ⟨h2, h3, fun i => (h4 i).1, fun i => (h4 i).2.1, fun i => (h4 i).2.2⟩,
    fun ⟨h2, h3, h4, h5, h6⟩ => ⟨h2, h3, fun i => ⟨h4 i, h5 i, h6 i⟩⟩⟩

end QP.Implements

/-! ## Convexity -/

namespace QP
variable {nz nl nv : Nat} {q : QP nz nl nv}

theorem transpose_dot {m n : Nat} (M : Matrix (Fin m) (Fin n) ℝ) (x : Fin m → ℝ) (y : Fin n → ℝ) :
    (Mᵀ *ᵥ x) ⬝ᵥ y = x ⬝ᵥ (M *ᵥ y) := by
  rw [mulVec_transpose, ← dotProduct_mulVec]

theorem Convex.symm_dot (h : q.Convex) (x y : Fin nz → ℝ) : (q.H *ᵥ x) ⬝ᵥ y = x ⬝ᵥ (q.H *ᵥ y) := by
  conv_lhs => rw [← h.symm.eq]
  exact transpose_dot _ _ _

/-- The first order inequality for the objective. -/
theorem Convex.objective_ge (h : q.Convex) (z z' : Fin nz → ℝ) :
    q.objective z + (q.H *ᵥ z + q.f) ⬝ᵥ (z' - z) ≤ q.objective z' := by
  have h1 := h.nonneg (z' - z)
  have h2 : z' ⬝ᵥ q.H *ᵥ z = z ⬝ᵥ q.H *ᵥ z' := by
    rw [dotProduct_comm, h.symm_dot]
  have h3 : (q.H *ᵥ z) ⬝ᵥ z' = z ⬝ᵥ q.H *ᵥ z' := h.symm_dot _ _
  have h4 : (q.H *ᵥ z) ⬝ᵥ z = z ⬝ᵥ q.H *ᵥ z := h.symm_dot _ _
  simp only [mulVec_sub, sub_dotProduct, dotProduct_sub, add_dotProduct] at h1 ⊢
  unfold objective
  rw [h2] at h1
  rw [h3, h4]
  linarith

/-- Lower bound for the objective at a feasible point `z'` from any primal-dual point. -/
theorem Convex.lower_bound (h : q.Convex) (z : Fin nz → ℝ) (l : Fin nl → ℝ) (v : Fin nv → ℝ)
    {z' : Fin nz → ℝ} (hz' : q.Feasible z') :
    q.objective z + q.lagrangeGrad z l v ⬝ᵥ (z' - z) - l ⬝ᵥ (q.h - q.G *ᵥ z) -
      v ⬝ᵥ (q.b - q.A *ᵥ z) + v ⬝ᵥ (q.b - q.A *ᵥ z') ≤ q.objective z' := by
  have h1 := h.objective_ge z z'
  have h2 : q.lagrangeGrad z l v ⬝ᵥ (z' - z) = (q.H *ᵥ z + q.f) ⬝ᵥ (z' - z) +
      l ⬝ᵥ (q.G *ᵥ (z' - z)) + v ⬝ᵥ (q.A *ᵥ (z' - z)) := by
    rw [lagrangeGrad, add_dotProduct, add_dotProduct, transpose_dot, transpose_dot]
  have h3 : q.G *ᵥ (z' - z) = q.h - q.G *ᵥ z := by rw [mulVec_sub, hz'.eq]
  have h4 : q.A *ᵥ (z' - z) = (q.b - q.A *ᵥ z) - (q.b - q.A *ᵥ z') := by
    rw [mulVec_sub]; abel
  have h5 := dotProduct_sub v (q.b - q.A *ᵥ z) (q.b - q.A *ᵥ z')
  rw [h2, h3, h4, h5]
  linarith

/-- KKT points are global minimisers. -/
theorem KKT.minimiser (h : q.Convex) {z l v} (hk : q.KKT z l v) : q.Minimiser z := by
  refine ⟨hk.feasible, fun z' hz' => ?_⟩
  have h1 := h.lower_bound z l v hz'
  rw [hk.stationary, zero_dotProduct, hk.feasible.eq, sub_self, dotProduct_zero] at h1
  have h2 : v ⬝ᵥ (q.b - q.A *ᵥ z) = 0 := Finset.sum_eq_zero fun i _ => by
    rcases hk.complementary i with h | h
    · rw [h, zero_mul]
    · rw [Pi.sub_apply, h, sub_self, mul_zero]
  have h3 : 0 ≤ v ⬝ᵥ (q.b - q.A *ᵥ z') := Finset.sum_nonneg fun i _ =>
    mul_nonneg (hk.dual i) (sub_nonneg.2 (hz'.ineq i))
  rw [h2] at h1
  linarith

/-- Points at which the monotone operator of the problem takes the value `(wz, wl, wv)`. -/
structure Value (q : QP nz nl nv) (wz : Fin nz → ℝ) (wl : Fin nl → ℝ) (wv : Fin nv → ℝ)
    (z : Fin nz → ℝ) (l : Fin nl → ℝ) (v : Fin nv → ℝ) : Prop where
  stationary : q.lagrangeGrad z l v = wz
  eq : q.h - q.G *ᵥ z = wl
  margin : ∀ i, 0 ≤ q.b i - (q.A *ᵥ z) i - wv i
  dual : ∀ i, 0 ≤ v i
  complementary : ∀ i, v i = 0 ∨ q.b i - (q.A *ᵥ z) i - wv i = 0

theorem ProxKKT.value {sigma : ℝ} {zb lb vb z l v} (h : q.ProxKKT sigma zb lb vb z l v) :
    q.Value (sigma • (zb - z)) (sigma • (lb - l)) (sigma • (vb - v)) z l v where
  stationary := by
    have := h.stationary
    funext i
    have := congrFun this i
    simp only [Pi.add_apply, Pi.smul_apply, Pi.sub_apply, Pi.zero_apply, smul_eq_mul] at this ⊢
    linarith
  eq := by
    funext i
    have := congrFun h.eq i
    simp only [Pi.add_apply, Pi.smul_apply, Pi.sub_apply, Pi.zero_apply, smul_eq_mul] at this ⊢
    linarith
  margin i := by
    have := h.margin i
    simp only [Pi.smul_apply, Pi.sub_apply, smul_eq_mul]
    linarith
  dual := h.dual
  complementary i := by
    rcases h.complementary i with h | h
    · exact .inl h
    · right
      simp only [Pi.smul_apply, Pi.sub_apply, smul_eq_mul]
      linarith

theorem KKT.value {z l v} (h : q.KKT z l v) : q.Value 0 0 0 z l v where
  stationary := h.stationary
  eq := by rw [h.feasible.eq, sub_self]
  margin i := by have := h.feasible.ineq i; simp only [Pi.zero_apply]; linarith
  dual := h.dual
  complementary i := by
    rcases h.complementary i with h | h
    · exact .inl h
    · right; simp only [Pi.zero_apply]; linarith

/-- Monotonicity. -/
theorem Value.monotone (h : q.Convex) {wz wl wv z l v wz' wl' wv' z' l' v'}
    (h1 : q.Value wz wl wv z l v) (h2 : q.Value wz' wl' wv' z' l' v') :
    (z - z') ⬝ᵥ q.H *ᵥ (z - z') ≤
      (wz - wz') ⬝ᵥ (z - z') + (wl - wl') ⬝ᵥ (l - l') + (wv - wv') ⬝ᵥ (v - v') := by
  have hz : wz - wz' = q.H *ᵥ (z - z') + q.Gᵀ *ᵥ (l - l') + q.Aᵀ *ᵥ (v - v') := by
    rw [← h1.stationary, ← h2.stationary, lagrangeGrad, lagrangeGrad, mulVec_sub, mulVec_sub,
      mulVec_sub]
    abel
  have hl : wl - wl' = -(q.G *ᵥ (z - z')) := by
    rw [← h1.eq, ← h2.eq, mulVec_sub]; abel
  have hv : (wv - wv') ⬝ᵥ (v - v') ≥ -((q.A *ᵥ (z - z')) ⬝ᵥ (v - v')) := by
    rw [ge_iff_le, ← neg_dotProduct]
    refine Finset.sum_le_sum fun i _ => ?_
    have a1 := h1.margin i
    have a2 := h2.margin i
    have b1 := h1.dual i
    have b2 := h2.dual i
    have c1 : v i * (q.b i - (q.A *ᵥ z) i - wv i) = 0 := by
      rcases h1.complementary i with h | h <;> rw [h] <;> simp
    have c2 : v' i * (q.b i - (q.A *ᵥ z') i - wv' i) = 0 := by
      rcases h2.complementary i with h | h <;> rw [h] <;> simp
    have d1 := mul_nonneg b1 a2
    have d2 := mul_nonneg b2 a1
    simp only [Pi.sub_apply, Pi.neg_apply, mulVec_sub]
    nlinarith
  rw [hz, hl]
  have e1 : (q.Gᵀ *ᵥ (l - l')) ⬝ᵥ (z - z') = (q.G *ᵥ (z - z')) ⬝ᵥ (l - l') := by
    rw [transpose_dot, dotProduct_comm]
  have e2 : (q.Aᵀ *ᵥ (v - v')) ⬝ᵥ (z - z') = (q.A *ᵥ (z - z')) ⬝ᵥ (v - v') := by
    rw [transpose_dot, dotProduct_comm]
  rw [add_dotProduct, add_dotProduct, e1, e2, neg_dotProduct, h.symm_dot]
  linarith

theorem dist2_eq_zero {z z' : Fin nz → ℝ} {l l' : Fin nl → ℝ} {v v' : Fin nv → ℝ}
    (h : dist2 z l v z' l' v' ≤ 0) : z = z' ∧ l = l' ∧ v = v' := by
  have h1 := dot_self_nonneg (z - z')
  have h2 := dot_self_nonneg (l - l')
  have h3 := dot_self_nonneg (v - v')
  unfold dist2 at h
  refine ⟨sub_eq_zero.1 (dot_self_eq_zero.1 ?_), sub_eq_zero.1 (dot_self_eq_zero.1 ?_),
    sub_eq_zero.1 (dot_self_eq_zero.1 ?_)⟩ <;> linarith

theorem three_point {n : Nat} (a b c : Fin n → ℝ) :
    2 * ((a - b) ⬝ᵥ (b - c)) = (a - c) ⬝ᵥ (a - c) - (b - c) ⬝ᵥ (b - c) - (b - a) ⬝ᵥ (b - a) := by
  simp only [dotProduct, Finset.mul_sum, ← Finset.sum_sub_distrib]
  refine Finset.sum_congr rfl fun i _ => ?_
  simp only [Pi.sub_apply]
  ring

end QP
end Fbstab
