import Verif.Proofs.Suboptimal
import Verif.Spec.Convergence
import Mathlib.Analysis.InnerProductSpace.PiL2

/-!
# Inexact proximal steps

A point with a small residual of the proximal subproblem is close to an exact proximal step from a
perturbed centre.  From this: how far inexact steps can move away from a solution, and how small the
residual of the problem is after a step.
-/

namespace Fbstab
open Matrix

/-! ## Primal-dual points as elements of a Euclidean space -/

section
variable {nz nl nv : Nat}

/-- A primal-dual point as an element of a Euclidean space. -/
noncomputable def vec3 (z : Fin nz → ℝ) (l : Fin nl → ℝ) (v : Fin nv → ℝ) :
    EuclideanSpace ℝ (Fin nz ⊕ Fin nl ⊕ Fin nv) := WithLp.toLp 2 (Sum.elim z (Sum.elim l v))

theorem vec3_norm_sq (z : Fin nz → ℝ) (l : Fin nl → ℝ) (v : Fin nv → ℝ) :
    ‖vec3 z l v‖ ^ 2 = z ⬝ᵥ z + l ⬝ᵥ l + v ⬝ᵥ v := by
  rw [EuclideanSpace.real_norm_sq_eq]
  simp [vec3, dotProduct, sq, add_assoc]

theorem vec3_norm (z : Fin nz → ℝ) (l : Fin nl → ℝ) (v : Fin nv → ℝ) :
    ‖vec3 z l v‖ = √(z ⬝ᵥ z + l ⬝ᵥ l + v ⬝ᵥ v) := by
  rw [← vec3_norm_sq, Real.sqrt_sq (norm_nonneg _)]

theorem vec3_sub (z z' : Fin nz → ℝ) (l l' : Fin nl → ℝ) (v v' : Fin nv → ℝ) :
    vec3 z l v - vec3 z' l' v' = vec3 (z - z') (l - l') (v - v') := by
  ext i
  rcases i with i | i | i <;> simp [vec3]

theorem vec3_add (z z' : Fin nz → ℝ) (l l' : Fin nl → ℝ) (v v' : Fin nv → ℝ) :
    vec3 z l v + vec3 z' l' v' = vec3 (z + z') (l + l') (v + v') := by
  ext i
  rcases i with i | i | i <;> simp [vec3]

theorem vec3_smul (a : ℝ) (z : Fin nz → ℝ) (l : Fin nl → ℝ) (v : Fin nv → ℝ) :
    a • vec3 z l v = vec3 (a • z) (a • l) (a • v) := by
  ext i
  rcases i with i | i | i <;> simp [vec3]

theorem vec3_dist2 (z z' : Fin nz → ℝ) (l l' : Fin nl → ℝ) (v v' : Fin nv → ℝ) :
    ‖vec3 z l v - vec3 z' l' v'‖ ^ 2 = QP.dist2 z l v z' l' v' := by
  rw [vec3_sub, vec3_norm_sq, QP.dist2]

theorem norm3_vec3 (z : Vec ℝ nz) (l : Vec ℝ nl) (v : Vec ℝ nv) :
    norm3 z l v = ‖vec3 z.fn l.fn v.fn‖ := by rw [norm3_eq, vec3_norm]

theorem vec3_mono {z z' : Fin nz → ℝ} {l l' : Fin nl → ℝ} {v v' : Fin nv → ℝ}
    (hz : ∀ i, |z i| ≤ |z' i|) (hl : ∀ i, |l i| ≤ |l' i|) (hv : ∀ i, |v i| ≤ |v' i|) :
    ‖vec3 z l v‖ ≤ ‖vec3 z' l' v'‖ := by
  rw [vec3_norm, vec3_norm]
  have key : ∀ {n : Nat} {a b : Fin n → ℝ}, (∀ i, |a i| ≤ |b i|) → a ⬝ᵥ a ≤ b ⬝ᵥ b := by
    intro n a b h
    refine Finset.sum_le_sum fun i _ => ?_
    rw [← abs_mul_abs_self (a i), ← abs_mul_abs_self (b i)]
    exact mul_self_le_mul_self (abs_nonneg _) (h i)
  exact Real.sqrt_le_sqrt (add_le_add (add_le_add (key hz) (key hl)) (key hv))

theorem vec3_z (z : Fin nz → ℝ) : ‖vec3 z (0 : Fin nl → ℝ) (0 : Fin nv → ℝ)‖ = euclid z := by
  rw [vec3_norm, euclid]; simp

theorem vec3_l (l : Fin nl → ℝ) : ‖vec3 (0 : Fin nz → ℝ) l (0 : Fin nv → ℝ)‖ = euclid l := by
  rw [vec3_norm, euclid]; simp

theorem vec3_v (v : Fin nv → ℝ) : ‖vec3 (0 : Fin nz → ℝ) (0 : Fin nl → ℝ) v‖ = euclid v := by
  rw [vec3_norm, euclid]; simp

theorem euclid_le_vec3 (z : Fin nz → ℝ) (l : Fin nl → ℝ) (v : Fin nv → ℝ) :
    euclid z ≤ ‖vec3 z l v‖ ∧ euclid l ≤ ‖vec3 z l v‖ ∧ euclid v ≤ ‖vec3 z l v‖ := by
  have h1 := dot_self_nonneg z
  have h2 := dot_self_nonneg l
  have h3 := dot_self_nonneg v
  rw [vec3_norm]
  refine ⟨Real.sqrt_le_sqrt ?_, Real.sqrt_le_sqrt ?_, Real.sqrt_le_sqrt ?_⟩ <;> linarith

theorem euclid_smul {n : Nat} (a : ℝ) (x : Fin n → ℝ) : euclid (a • x) = |a| * euclid x := by
  rw [euclid, euclid, smul_dotProduct, dotProduct_smul, smul_eq_mul, smul_eq_mul, ← mul_assoc,
    Real.sqrt_mul (mul_self_nonneg a), Real.sqrt_mul_self_eq_abs]

theorem euclid_mono {n : Nat} {a b : Fin n → ℝ} (h : ∀ i, |a i| ≤ |b i|) : euclid a ≤ euclid b := by
  unfold euclid
  refine Real.sqrt_le_sqrt (Finset.sum_le_sum fun i _ => ?_)
  rw [← abs_mul_abs_self (a i), ← abs_mul_abs_self (b i)]
  exact mul_self_le_mul_self (abs_nonneg _) (h i)

end

/-! ## The complementarity function and the minimum -/

theorem pfb_min {alpha : ℝ} (h0 : 0 < alpha) (h1 : alpha < 1) (a b : ℝ) :
    alpha / 2 * |min a b| ≤ |pfb a b alpha| := by
  have key : ∀ a b : ℝ, a ≤ b → alpha / 2 * |a| ≤ |pfb a b alpha| := by
    intro a b hab
    rw [pfb_real]
    rcases le_or_gt a 0 with ha | ha
    · rw [max_eq_left ha, mul_zero, zero_mul, add_zero]
      have h2 : b ≤ √(a * a + b * b) := by
        refine le_trans (le_abs_self b) ?_
        rw [← Real.sqrt_mul_self_eq_abs]
        exact Real.sqrt_le_sqrt (by nlinarith [mul_self_nonneg a])
      have h3 : a + b - √(a * a + b * b) ≤ a := by linarith
      rw [abs_mul, abs_of_pos h0, abs_of_nonpos ha, abs_of_nonpos (h3.trans ha)]
      nlinarith
    · have hb : 0 < b := lt_of_lt_of_le ha hab
      have h2 : √(a * a + b * b) ≤ b + a / 2 := by
        rw [Real.sqrt_le_left (by positivity)]
        nlinarith
      have h3 : a / 2 ≤ a + b - √(a * a + b * b) := by linarith
      have h4 : 0 ≤ (1 - alpha) * max 0 a * max 0 b := by
        have : 0 ≤ 1 - alpha := by linarith
        positivity
      rw [abs_of_pos ha]
      refine le_trans ?_ (le_abs_self _)
      nlinarith
  have hsymm : pfb a b alpha = pfb b a alpha := by
    rw [pfb_real, pfb_real, add_comm (a * a), add_comm a]; ring
  rcases le_total a b with h | h
  · rw [min_eq_left h]; exact key a b h
  · rw [min_eq_right h, hsymm]; exact key b a h

namespace QP
variable {nz nl nv : Nat} {q : QP nz nl nv}

theorem sizeA_nonneg (q : QP nz nl nv) : 0 ≤ q.sizeA := Real.sqrt_nonneg _

theorem frobenius {m n : Nat} (M : Matrix (Fin m) (Fin n) ℝ) (x : Fin n → ℝ) :
    euclid (M *ᵥ x) ≤ √(∑ i, ∑ j, M i j ^ 2) * euclid x := by
  have h0 : 0 ≤ ∑ i, ∑ j, M i j ^ 2 :=
    Finset.sum_nonneg fun i _ => Finset.sum_nonneg fun j _ => sq_nonneg (M i j)
  rw [euclid, euclid, ← Real.sqrt_mul h0]
  refine Real.sqrt_le_sqrt ?_
  rw [dotProduct, Finset.sum_mul]
  refine Finset.sum_le_sum fun i _ => ?_
  have h := Finset.sum_mul_sq_le_sq_mul_sq Finset.univ (M i) x
  rw [← sq]
  refine le_trans h (le_of_eq ?_)
  simp [dotProduct, sq]

theorem sizeA_mul (q : QP nz nl nv) (z : Fin nz → ℝ) : euclid (q.A *ᵥ z) ≤ q.sizeA * euclid z :=
  frobenius _ _

theorem sizeA_mul_transpose (q : QP nz nl nv) (v : Fin nv → ℝ) :
    euclid (q.Aᵀ *ᵥ v) ≤ q.sizeA * euclid v := by
  refine le_trans (frobenius _ _) (le_of_eq ?_)
  rw [sizeA, Finset.sum_comm]
  rfl

/-! ## A point with a small residual is an exact step from a nearby centre -/

/-- `z`, `l`, `v` has residual `(rz, rl)` in the first two parts of the subproblem at `(zb, lb, vb)`,
and `m` is the minimum of the complementarity pairs. -/
structure InexactProx (q : QP nz nl nv) (sigma : ℝ) (zb : Fin nz → ℝ) (lb : Fin nl → ℝ)
    (vb : Fin nv → ℝ) (rz : Fin nz → ℝ) (rl : Fin nl → ℝ) (m : Fin nv → ℝ)
    (z : Fin nz → ℝ) (l : Fin nl → ℝ) (v : Fin nv → ℝ) : Prop where
  stationary : q.lagrangeGrad z l v + sigma • (z - zb) = rz
  eq : q.h - q.G *ᵥ z + sigma • (l - lb) = rl
  compl : ∀ i, m i = min (q.b i - (q.A *ᵥ z) i + sigma * (v i - vb i)) (v i)

theorem InexactProx.exact {sigma : ℝ} (hs : 0 < sigma) {zb lb vb rz rl m z l v}
    (h : q.InexactProx sigma zb lb vb rz rl m z l v) :
    q.ProxKKT sigma (zb + sigma⁻¹ • (rz - q.Aᵀ *ᵥ m)) (lb + sigma⁻¹ • rl)
      (vb + sigma⁻¹ • ((1 - sigma) • m)) z l (v - m) where
  stationary := by
    have h1 := h.stationary
    have e : q.lagrangeGrad z l (v - m) = q.lagrangeGrad z l v - q.Aᵀ *ᵥ m := by
      unfold lagrangeGrad; rw [mulVec_sub]; abel
    have e2 : sigma • (z - (zb + sigma⁻¹ • (rz - q.Aᵀ *ᵥ m))) =
        sigma • (z - zb) - (rz - q.Aᵀ *ᵥ m) := by
      rw [← sub_sub, smul_sub, smul_smul, mul_inv_cancel₀ hs.ne', one_smul]
    rw [e, e2, ← h1]
    abel
  eq := by
    have h1 := h.eq
    have e2 : sigma • (l - (lb + sigma⁻¹ • rl)) = sigma • (l - lb) - rl := by
      rw [← sub_sub, smul_sub, smul_smul, mul_inv_cancel₀ hs.ne', one_smul]
    rw [e2, ← h1]
    abel
  margin i := by
    have h1 := h.compl i
    have e : sigma * ((v - m) i - (vb + sigma⁻¹ • ((1 - sigma) • m)) i) =
        sigma * (v i - vb i) - m i := by
      simp only [Pi.sub_apply, Pi.add_apply, Pi.smul_apply, smul_eq_mul]
      field_simp
      ring
    rw [e]
    have := min_le_left (q.b i - (q.A *ᵥ z) i + sigma * (v i - vb i)) (v i)
    linarith
  dual i := by
    have h1 := h.compl i
    have := min_le_right (q.b i - (q.A *ᵥ z) i + sigma * (v i - vb i)) (v i)
    simp only [Pi.sub_apply]
    linarith
  complementary i := by
    have h1 := h.compl i
    have e : sigma * ((v - m) i - (vb + sigma⁻¹ • ((1 - sigma) • m)) i) =
        sigma * (v i - vb i) - m i := by
      simp only [Pi.sub_apply, Pi.add_apply, Pi.smul_apply, smul_eq_mul]
      field_simp
      ring
    rw [e]
    rcases le_total (q.b i - (q.A *ᵥ z) i + sigma * (v i - vb i)) (v i) with h2 | h2
    · right; rw [min_eq_left h2] at h1; linarith
    · left; rw [min_eq_right h2] at h1; simp only [Pi.sub_apply]; linarith

theorem errFactor_pos (q : QP nz nl nv) {alpha sigma : ℝ} (ha : 0 < alpha) (hs : 0 < sigma) :
    0 < q.errFactor alpha sigma := by
  have := q.sizeA_nonneg
  unfold errFactor
  positivity

/-- The perturbation of the centre and of the dual variable together. -/
theorem InexactProx.perturbation {sigma alpha eps : ℝ} (hs : 0 < sigma) (ha : 0 < alpha)
    {rz : Fin nz → ℝ} {rl : Fin nl → ℝ} {m : Fin nv → ℝ}
    (hr : ‖vec3 rz rl (0 : Fin nv → ℝ)‖ ≤ eps) (hm : euclid m ≤ 2 * eps / alpha) :
    ‖vec3 (sigma⁻¹ • (rz - q.Aᵀ *ᵥ m)) (sigma⁻¹ • rl) (sigma⁻¹ • ((1 - sigma) • m))‖ + euclid m ≤
      q.errFactor alpha sigma * eps ∧
    q.sizeA * euclid m + euclid m ≤ sigma * q.errFactor alpha sigma * eps := by
  have hA := q.sizeA_nonneg
  have he : 0 ≤ eps := le_trans (norm_nonneg _) hr
  have hm0 := euclid_nonneg m
  have e : vec3 (sigma⁻¹ • (rz - q.Aᵀ *ᵥ m)) (sigma⁻¹ • rl) (sigma⁻¹ • ((1 - sigma) • m)) =
      sigma⁻¹ • (vec3 rz rl (0 : Fin nv → ℝ) - vec3 (q.Aᵀ *ᵥ m) 0 0 +
        vec3 0 0 ((1 - sigma) • m)) := by
    rw [vec3_sub, vec3_add, vec3_smul]
    simp
  have h1 : ‖vec3 rz rl (0 : Fin nv → ℝ) - vec3 (q.Aᵀ *ᵥ m) 0 0 +
        vec3 0 0 ((1 - sigma) • m)‖ ≤ eps + q.sizeA * euclid m + (1 + sigma) * euclid m := by
    refine le_trans (norm_add_le _ _) (add_le_add (le_trans (norm_sub_le _ _) (add_le_add hr ?_)) ?_)
    · rw [vec3_z]; exact q.sizeA_mul_transpose m
    · rw [vec3_v, euclid_smul]
      refine mul_le_mul_of_nonneg_right ?_ hm0
      rw [abs_le]; constructor <;> linarith
  have h2 : eps + q.sizeA * euclid m + (1 + sigma) * euclid m ≤
      eps + 2 * (q.sizeA + 1 + sigma) / alpha * eps := by
    have : (q.sizeA + (1 + sigma)) * euclid m ≤ (q.sizeA + (1 + sigma)) * (2 * eps / alpha) :=
      mul_le_mul_of_nonneg_left hm (by positivity)
    have e3 : (q.sizeA + (1 + sigma)) * (2 * eps / alpha) =
      2 * (q.sizeA + 1 + sigma) / alpha * eps := by ring
    linarith
  constructor
  · rw [e, norm_smul, Real.norm_of_nonneg (by positivity)]
    have h3 := mul_le_mul_of_nonneg_left (h1.trans h2) (inv_nonneg.2 hs.le)
    have e4 : q.errFactor alpha sigma * eps =
      sigma⁻¹ * (eps + 2 * (q.sizeA + 1 + sigma) / alpha * eps) + 2 * eps / alpha := by
      unfold errFactor; field_simp
    rw [e4]
    linarith
  · have h4 : (q.sizeA + 1) * euclid m ≤ (q.sizeA + 1) * (2 * eps / alpha) :=
      mul_le_mul_of_nonneg_left hm (by positivity)
    have e5 : sigma * q.errFactor alpha sigma * eps = eps + (q.sizeA + 1) * (2 * eps / alpha) +
        2 * (sigma * (2 * eps / alpha)) := by
      unfold errFactor; field_simp; ring
    have : 0 ≤ sigma * (2 * eps / alpha) := by positivity
    rw [e5]
    linarith

/-- What an inexact proximal step does: with `eps` the residual of the subproblem, the distance `D` to
a solution and the distance `D'` after projection of the multipliers satisfy `D' <= d + mu`,
`d^2 + Q^2 <= (D + eta)^2` with `mu + eta <= errFactor * eps`. -/
theorem InexactProx.fejer (hc : q.Convex) {sigma alpha eps : ℝ} (hs : 0 < sigma) (ha : 0 < alpha)
    {zb lb vb rz rl m z l v} (h : q.InexactProx sigma zb lb vb rz rl m z l v)
    (hr : ‖vec3 rz rl (0 : Fin nv → ℝ)‖ ≤ eps) (hm : euclid m ≤ 2 * eps / alpha)
    {zs ls vs} (hk : q.KKT zs ls vs) :
    ∃ eta mu d Q : ℝ, 0 ≤ eta ∧ 0 ≤ mu ∧ 0 ≤ d ∧ 0 ≤ Q ∧
      eta + mu ≤ q.errFactor alpha sigma * eps ∧
      ‖vec3 z l (fun i => max (v i) 0) - vec3 zs ls vs‖ ≤ d + mu ∧
      d ^ 2 + Q ^ 2 ≤ (‖vec3 zb lb vb - vec3 zs ls vs‖ + eta) ^ 2 ∧
      ‖vec3 (q.lagrangeGrad z l fun i => max (v i) 0) (q.h - q.G *ᵥ z)
        (fun i => min (q.b i - (q.A *ᵥ z) i) (max (v i) 0))‖ ≤
          sigma * Q + sigma * q.errFactor alpha sigma * eps := by
  obtain ⟨p1, p2⟩ := InexactProx.perturbation (q := q) hs ha hr hm
  have hx := h.exact hs
  set ez := sigma⁻¹ • (rz - q.Aᵀ *ᵥ m) with hez
  set el := sigma⁻¹ • rl with hel
  set ev := sigma⁻¹ • ((1 - sigma) • m) with hev
  have hf := hx.fejer hc hs hk
  have hvm : ∀ i, |max (v i) 0 - (v i - m i)| ≤ |m i| := by
    intro i
    have h1 := min_le_right (q.b i - (q.A *ᵥ z) i + sigma * (v i - vb i)) (v i)
    rw [← h.compl i] at h1
    rcases le_total 0 (v i) with hv | hv
    · rw [max_eq_left hv]; simp
    · rw [max_eq_right hv, abs_of_nonpos (h1.trans hv), abs_le]
      constructor <;> linarith
  refine ⟨‖vec3 ez el ev‖, euclid m, ‖vec3 z l (v - m) - vec3 zs ls vs‖,
    ‖vec3 z l (v - m) - vec3 (zb + ez) (lb + el) (vb + ev)‖, norm_nonneg _, euclid_nonneg _,
    norm_nonneg _, norm_nonneg _, p1, ?_, ?_, ?_⟩
  · have e : vec3 z l (fun i => max (v i) 0) - vec3 zs ls vs =
        (vec3 z l (v - m) - vec3 zs ls vs) + vec3 0 0 (fun i => max (v i) 0 - (v i - m i)) := by
      rw [vec3_sub, vec3_sub, vec3_add]
      congr 1
      · simp
      · simp
      · ext i; simp
    rw [e]
    refine le_trans (norm_add_le _ _) (add_le_add le_rfl ?_)
    rw [vec3_v]
    exact euclid_mono hvm
  · rw [vec3_dist2, vec3_dist2]
    refine le_trans hf ?_
    rw [← vec3_dist2]
    refine pow_le_pow_left₀ (norm_nonneg _) ?_ 2
    have e : vec3 (zb + ez) (lb + el) (vb + ev) - vec3 zs ls vs =
        (vec3 zb lb vb - vec3 zs ls vs) + vec3 ez el ev := by
      rw [← vec3_add]; abel
    rw [e]
    exact norm_add_le _ _
  · -- the residual after the step
    have hA : ‖vec3 (q.Aᵀ *ᵥ fun i => max (v i) 0 - (v i - m i)) (0 : Fin nl → ℝ) (0 : Fin nv → ℝ)‖ ≤
        q.sizeA * euclid m := by
      rw [vec3_z]
      exact le_trans (q.sizeA_mul_transpose _) (mul_le_mul_of_nonneg_left (euclid_mono hvm)
        q.sizeA_nonneg)
    have h1 : ∀ i, |min (q.b i - (q.A *ᵥ z) i) (max (v i) 0)| ≤
        abs (sigma * |(v - m - (vb + ev)) i| + |m i|) := by
      intro i
      rw [abs_of_nonneg (a := _ + _) (by positivity)]
      -- the pair of the exact step
      have a1 := hx.margin i
      have a2 := hx.dual i
      have a3 : min (q.b i - (q.A *ᵥ z) i + sigma * ((v - m) i - (vb + ev) i)) ((v - m) i) = 0 := by
        rcases hx.complementary i with h | h
        · rw [min_eq_right (h.le.trans a1)]; exact h
        · rw [min_eq_left (h.le.trans a2)]; exact h
      have a4 := hvm i
      have a5 : |sigma * ((v - m) i - (vb + ev) i)| = sigma * |(v - m - (vb + ev)) i| := by
        rw [abs_mul, abs_of_pos hs]; rfl
      have a6 := abs_min_sub_min_le_max (q.b i - (q.A *ᵥ z) i) (max (v i) 0)
        (q.b i - (q.A *ᵥ z) i + sigma * ((v - m) i - (vb + ev) i)) ((v - m) i)
      rw [a3, sub_zero] at a6
      refine le_trans a6 (max_le ?_ ?_)
      · rw [sub_add_cancel_left, abs_neg, a5]
        linarith [abs_nonneg (m i)]
      · have : 0 ≤ sigma * |(v - m - (vb + ev)) i| := by positivity
        have : |max (v i) 0 - (v - m) i| ≤ |m i| := a4
        linarith
    have h2 := vec3_mono (z := q.lagrangeGrad z l fun i => max (v i) 0) (l := q.h - q.G *ᵥ z)
      (fun i => le_refl |_|) (fun i => le_refl |_|) h1
    refine le_trans h2 ?_
    have e : vec3 (q.lagrangeGrad z l fun i => max (v i) 0) (q.h - q.G *ᵥ z)
        (fun i => sigma * |(v - m - (vb + ev)) i| + |m i|) =
        vec3 (-(sigma • (z - (zb + ez)))) (-(sigma • (l - (lb + el))))
          (fun i => sigma * |(v - m - (vb + ev)) i|) +
        vec3 (q.Aᵀ *ᵥ fun i => max (v i) 0 - (v i - m i)) 0 0 + vec3 0 0 (fun i => |m i|) := by
      have b1 := eq_neg_of_add_eq_zero_left hx.stationary
      have b2 := eq_neg_of_add_eq_zero_left hx.eq
      rw [vec3_add, vec3_add, ← b1, ← b2]
      congr 1
      · have : (fun i => max (v i) 0 - (v i - m i)) = (fun i => max (v i) 0) - (v - m) := rfl
        rw [this]
        unfold lagrangeGrad
        rw [mulVec_sub q.Aᵀ (fun i => max (v i) 0)]
        abel
      · simp
      · simp only [add_zero]; rfl
    rw [e]
    have h3 : ‖vec3 (-(sigma • (z - (zb + ez)))) (-(sigma • (l - (lb + el))))
          (fun i => sigma * |(v - m - (vb + ev)) i|)‖ ≤
        sigma * ‖vec3 z l (v - m) - vec3 (zb + ez) (lb + el) (vb + ev)‖ := by
      have : sigma * ‖vec3 z l (v - m) - vec3 (zb + ez) (lb + el) (vb + ev)‖ =
          ‖sigma • (vec3 z l (v - m) - vec3 (zb + ez) (lb + el) (vb + ev))‖ := by
        rw [norm_smul, Real.norm_of_nonneg hs.le]
      rw [this, vec3_sub, vec3_smul]
      refine vec3_mono (fun i => ?_) (fun i => ?_) (fun i => ?_)
      · simp
      · simp
      · rw [Pi.smul_apply, smul_eq_mul, abs_mul, abs_mul, abs_abs]
    have h4 : ‖vec3 (0 : Fin nz → ℝ) (0 : Fin nl → ℝ) (fun i => |m i|)‖ ≤ euclid m := by
      rw [vec3_v]; exact euclid_mono fun i => by rw [abs_abs]
    have h5 := norm_add₃_le (a := vec3 (-(sigma • (z - (zb + ez)))) (-(sigma • (l - (lb + el))))
          (fun i => sigma * |(v - m - (vb + ev)) i|))
      (b := vec3 (q.Aᵀ *ᵥ fun i => max (v i) 0 - (v i - m i)) (0 : Fin nl → ℝ) (0 : Fin nv → ℝ))
      (c := vec3 (0 : Fin nz → ℝ) (0 : Fin nl → ℝ) (fun i => |m i|))
    linarith

end QP
end Fbstab
