import Verif.Proofs.PfbStep
import Verif.Proofs.ProxMath

/-!
# Newton's method on a proximal subproblem

Length of the Newton direction, decrease of the residual along it, and boundedness of the iterates; all with
explicit constants.
-/

namespace Fbstab
open Matrix

namespace QP
variable {nz nl nv : Nat} {q : QP nz nl nv}

theorem sizeH_nonneg (q : QP nz nl nv) : 0 ≤ q.sizeH := Real.sqrt_nonneg _
theorem sizeG_nonneg (q : QP nz nl nv) : 0 ≤ q.sizeG := Real.sqrt_nonneg _
theorem sizeH_mul (q : QP nz nl nv) (z : Fin nz → ℝ) : euclid (q.H *ᵥ z) ≤ q.sizeH * euclid z :=
  frobenius _ _
theorem sizeG_mul (q : QP nz nl nv) (z : Fin nz → ℝ) : euclid (q.G *ᵥ z) ≤ q.sizeG * euclid z :=
  frobenius _ _
theorem sizeG_mul_transpose (q : QP nz nl nv) (l : Fin nl → ℝ) :
    euclid (q.Gᵀ *ᵥ l) ≤ q.sizeG * euclid l := by
  refine le_trans (frobenius _ _) (le_of_eq ?_)
  rw [sizeG, Finset.sum_comm]
  rfl

/-- The complementarity pair. -/
noncomputable def pairA (q : QP nz nl nv) (sigma : ℝ) (vb : Fin nv → ℝ) (z : Fin nz → ℝ) (v : Fin nv → ℝ)
    (i : Fin nv) : ℝ := q.b i - (q.A *ᵥ z) i + sigma * (v i - vb i)

/-- The residual of the proximal subproblem. -/
noncomputable def subRes (q : QP nz nl nv) (alpha sigma : ℝ) (zb : Fin nz → ℝ) (lb : Fin nl → ℝ)
    (vb : Fin nv → ℝ) (z : Fin nz → ℝ) (l : Fin nl → ℝ) (v : Fin nv → ℝ) :
    EuclideanSpace ℝ (Fin nz ⊕ Fin nl ⊕ Fin nv) :=
  vec3 (q.lagrangeGrad z l v + sigma • (z - zb)) (q.h - q.G *ᵥ z + sigma • (l - lb))
    (fun i => pfb (q.pairA sigma vb z v i) (v i) alpha)

/-- The Newton direction at a point of the subproblem. -/
def NewtonDir (q : QP nz nl nv) (alpha sigma : ℝ) (zb : Fin nz → ℝ) (lb : Fin nl → ℝ)
    (vb : Fin nv → ℝ) (z : Fin nz → ℝ) (l : Fin nl → ℝ) (v : Fin nv → ℝ)
    (dz : Fin nz → ℝ) (dl : Fin nl → ℝ) (dv : Fin nv → ℝ) : Prop :=
  q.NewtonSystem sigma (fun i => (pfbGradient alpha (q.pairA sigma vb z v i) (v i)).1)
    (fun i => (pfbGradient alpha (q.pairA sigma vb z v i) (v i)).2)
    (-(q.lagrangeGrad z l v + sigma • (z - zb))) (-(q.h - q.G *ᵥ z + sigma • (l - lb)))
    (fun i => -pfb (q.pairA sigma vb z v i) (v i) alpha) dz dl dv

/-- Two numbers of the same sign: their product is bounded through any weighted sum. -/
theorem product_le {c g1 g2 a b r : ℝ} (hc : 0 < c) (h1 : 0 ≤ g1) (h2 : 0 ≤ g2) (hs : c ≤ g1 + g2)
    (h : g1 * a + g2 * b = r) : a * b ≤ |r| / c * (|a| + |b|) := by
  rcases le_or_gt (a * b) 0 with hn | hp
  · exact hn.trans (by positivity)
  have e1 : |r| = g1 * |a| + g2 * |b| := by
    rcases mul_pos_iff.1 hp with ⟨ha, hb⟩ | ⟨ha, hb⟩
    · rw [abs_of_pos ha, abs_of_pos hb, ← h, abs_of_nonneg (by positivity)]
    · rw [abs_of_neg ha, abs_of_neg hb, ← h, abs_of_nonpos]
      · ring
      · nlinarith
  have e2 : a * b = |a| * |b| := by rw [← abs_mul, abs_of_pos hp]
  rw [e2, div_mul_eq_mul_div, le_div_iff₀ hc, e1]
  have ha := abs_nonneg a
  have hb := abs_nonneg b
  have hab := mul_nonneg ha hb
  have k1 := mul_le_mul_of_nonneg_right hs hab
  have k2 : 0 ≤ g1 * (|a| * |a|) := by positivity
  have k3 : 0 ≤ g2 * (|b| * |b|) := by positivity
  nlinarith

theorem sum_abs_mul_le {n : Nat} (x y : Fin n → ℝ) : ∑ i, |x i| * |y i| ≤ euclid x * euclid y := by
  have h := dot_le_euclid (fun i => |x i|) (fun i => |y i|)
  have e : ∀ w : Fin n → ℝ, euclid (fun i => |w i|) = euclid w := fun w =>
    le_antisymm (euclid_mono fun i => by rw [abs_abs]) (euclid_mono fun i => by rw [abs_abs])
  rw [e, e] at h
  exact h

theorem euclid_add_le {n : Nat} (x y : Fin n → ℝ) : euclid (x + y) ≤ euclid x + euclid y := by
  refine abs_le_of_sq_le_sq' ?_ (add_nonneg (euclid_nonneg _) (euclid_nonneg _)) |>.2
  rw [sq, euclid_sq]
  have h1 := euclid_sq x
  have h2 := euclid_sq y
  have h3 := dot_le_euclid x y
  have e : (x + y) ⬝ᵥ (x + y) = x ⬝ᵥ x + 2 * (x ⬝ᵥ y) + y ⬝ᵥ y := by
    rw [add_dotProduct, dotProduct_add, dotProduct_add, dotProduct_comm y x]; ring
  rw [e]
  nlinarith

theorem euclid_neg {n : Nat} (x : Fin n → ℝ) : euclid (-x) = euclid x := by
  unfold euclid; rw [neg_dotProduct_neg]

/-- The length of a Newton direction. -/
theorem NewtonSystem.bound (hc : q.Convex) {alpha sigma : ℝ} (ha : 0 < alpha) (hs : 0 < sigma)
    {g1 g2 : Fin nv → ℝ} (h1 : ∀ i, 0 ≤ g1 i) (h2 : ∀ i, 0 ≤ g2 i) (h3 : ∀ i, alpha / 2 ≤ g1 i + g2 i)
    {rz rl rv dz dl dv} (h : q.NewtonSystem sigma g1 g2 rz rl rv dz dl dv) :
    ‖vec3 dz dl dv‖ ≤ q.errFactor alpha sigma * ‖vec3 rz rl rv‖ := by
  set da : Fin nv → ℝ := fun i => -(q.A *ᵥ dz) i + sigma * dv i with hda
  have hA := q.sizeA_nonneg
  set n := ‖vec3 dz dl dv‖ with hn
  set F := ‖vec3 rz rl rv‖ with hF
  obtain ⟨d1, d2, d3⟩ := euclid_le_vec3 dz dl dv
  obtain ⟨f1, f2, f3⟩ := euclid_le_vec3 rz rl rv
  rw [← hn] at d1 d2 d3
  rw [← hF] at f1 f2 f3
  have hn0 : 0 ≤ n := norm_nonneg _
  have hF0 : 0 ≤ F := norm_nonneg _
  have hda' : euclid da ≤ (q.sizeA + sigma) * n := by
    have e : da = -(q.A *ᵥ dz) + sigma • dv := rfl
    rw [e]
    refine (euclid_add_le _ _).trans ?_
    rw [euclid_neg, euclid_smul, abs_of_pos hs]
    have := (q.sizeA_mul dz).trans (mul_le_mul_of_nonneg_left d1 hA)
    have := mul_le_mul_of_nonneg_left d3 hs.le
    linarith
  -- energy
  have hg := congrArg (fun w => w ⬝ᵥ dz) h.grad
  simp only [add_dotProduct, smul_dotProduct, smul_eq_mul, transpose_dot] at hg
  have he := congrArg (fun w => w ⬝ᵥ dl) h.eq
  simp only [add_dotProduct, smul_dotProduct, smul_eq_mul, neg_dotProduct] at he
  have hdv : dv ⬝ᵥ (q.A *ᵥ dz) = sigma * (dv ⬝ᵥ dv) - dv ⬝ᵥ da := by
    have e : q.A *ᵥ dz = sigma • dv - da := by
      ext i; simp only [hda, Pi.sub_apply, Pi.smul_apply, smul_eq_mul]; ring
    rw [e, dotProduct_sub, dotProduct_smul, smul_eq_mul]
  have hcx := hc.nonneg dz
  rw [dotProduct_comm (q.H *ᵥ dz), hdv] at hg
  rw [dotProduct_comm (q.G *ᵥ dz)] at he
  have henergy : sigma * n ^ 2 ≤ rz ⬝ᵥ dz + rl ⬝ᵥ dl + dv ⬝ᵥ da := by
    rw [hn, vec3_norm_sq]
    have : sigma * (dz ⬝ᵥ dz + dl ⬝ᵥ dl + dv ⬝ᵥ dv) =
      sigma * (dz ⬝ᵥ dz) + sigma * (dl ⬝ᵥ dl) + sigma * (dv ⬝ᵥ dv) := by ring
    rw [this]
    linarith
  have hprod : dv ⬝ᵥ da ≤ 2 / alpha * (F * ((q.sizeA + sigma) * n) + F * n) := by
    have e1 : dv ⬝ᵥ da ≤ ∑ i, 2 / alpha * (|rv i| * |da i| + |rv i| * |dv i|) := by
      refine Finset.sum_le_sum fun i _ => ?_
      have := product_le (by positivity) (h1 i) (h2 i) (h3 i) (h.compl i)
      rw [mul_comm (dv i)]
      refine this.trans (le_of_eq ?_)
      simp only [hda]
      field_simp
    refine e1.trans ?_
    rw [← Finset.mul_sum, Finset.sum_add_distrib]
    refine mul_le_mul_of_nonneg_left (add_le_add ?_ ?_) (by positivity)
    · exact (sum_abs_mul_le _ _).trans (mul_le_mul f3 hda' (euclid_nonneg _) hF0)
    · exact (sum_abs_mul_le _ _).trans (mul_le_mul f3 d3 (euclid_nonneg _) hF0)
  have hlin' : rz ⬝ᵥ dz + rl ⬝ᵥ dl ≤ F * n := by
    have k1 := dot_le_euclid rz dz
    have k2 := dot_le_euclid rl dl
    have s1 : euclid rz * euclid dz + euclid rl * euclid dl ≤ F * n := by
      refine abs_le_of_sq_le_sq' ?_ (by positivity) |>.2
      have a1 : euclid rz ^ 2 + euclid rl ^ 2 ≤ F ^ 2 := by
        rw [hF, vec3_norm_sq, sq, sq, euclid_sq, euclid_sq]; linarith [dot_self_nonneg rv]
      have a2 : euclid dz ^ 2 + euclid dl ^ 2 ≤ n ^ 2 := by
        rw [hn, vec3_norm_sq, sq, sq, euclid_sq, euclid_sq]; linarith [dot_self_nonneg dv]
      have a3 := mul_le_mul a1 a2 (by positivity) (sq_nonneg F)
      rw [mul_pow]
      refine le_trans ?_ a3
      nlinarith [sq_nonneg (euclid rz * euclid dl - euclid rl * euclid dz)]
    linarith
  have hfin : sigma * n ^ 2 ≤ (1 + 2 * (q.sizeA + 1 + sigma) / alpha) * F * n := by
    refine henergy.trans ?_
    have e : (1 + 2 * (q.sizeA + 1 + sigma) / alpha) * F * n =
      F * n + 2 / alpha * (F * ((q.sizeA + sigma) * n) + F * n) := by field_simp; ring
    rw [e]
    linarith
  rcases hn0.eq_or_lt with h0 | h0
  · rw [← h0]
    exact mul_nonneg (errFactor_pos q ha hs).le hF0
  · have h5 : n ≤ (1 + 2 * (q.sizeA + 1 + sigma) / alpha) / sigma * F := by
      rw [div_mul_eq_mul_div, le_div_iff₀ hs]
      have : n * sigma * n ≤ (1 + 2 * (q.sizeA + 1 + sigma) / alpha) * F * n := by nlinarith
      exact le_of_mul_le_mul_right this h0
    refine h5.trans (mul_le_mul_of_nonneg_right ?_ hF0)
    unfold errFactor
    have : 0 ≤ 2 / alpha := by positivity
    linarith

/-- Points of a subproblem with bounded residual are close to the solution. -/
theorem subRes_near (hc : q.Convex) {alpha sigma : ℝ} (ha : 0 < alpha) (ha' : alpha < 1) (hs : 0 < sigma)
    {zb lb vb z l v} {zs ls vs} (hk : q.KKT zs ls vs) :
    ‖vec3 z l v - vec3 zs ls vs‖ ≤ ‖vec3 zb lb vb - vec3 zs ls vs‖ +
      q.errFactor alpha sigma * ‖q.subRes alpha sigma zb lb vb z l v‖ := by
  set m : Fin nv → ℝ := fun i => min (q.b i - (q.A *ᵥ z) i + sigma * (v i - vb i)) (v i) with hmdef
  set rz := q.lagrangeGrad z l v + sigma • (z - zb) with hrz
  set rl := q.h - q.G *ᵥ z + sigma • (l - lb) with hrl
  set eps := ‖q.subRes alpha sigma zb lb vb z l v‖ with heps
  have hip : q.InexactProx sigma zb lb vb rz rl m z l v := ⟨rfl, rfl, fun i => rfl⟩
  have hr : ‖vec3 rz rl (0 : Fin nv → ℝ)‖ ≤ eps :=
    vec3_mono (fun i => le_rfl) (fun i => le_rfl) fun i => by simp
  have hme : euclid m ≤ 2 * eps / alpha := by
    have h1 : alpha / 2 * euclid m ≤ eps := by
      have e : alpha / 2 * euclid m = euclid ((alpha / 2) • m) := by
        rw [euclid_smul, abs_of_pos (by positivity)]
      rw [e]
      refine le_trans (euclid_mono (b := fun i => pfb (q.pairA sigma vb z v i) (v i) alpha) fun i => ?_)
        (euclid_le_vec3 _ _ _).2.2
      rw [Pi.smul_apply, smul_eq_mul, abs_mul, abs_of_pos (by positivity : 0 < alpha / 2)]
      exact pfb_min ha ha' _ _
    rw [le_div_iff₀ ha]
    linarith
  obtain ⟨p1, -⟩ := InexactProx.perturbation (q := q) hs ha hr hme
  have hx := hip.exact hs
  have hf := hx.fejer hc hs hk
  set ez := sigma⁻¹ • (rz - q.Aᵀ *ᵥ m) with hez
  set el := sigma⁻¹ • rl with hel
  set ev := sigma⁻¹ • ((1 - sigma) • m) with hev
  have k1 : ‖vec3 z l (v - m) - vec3 zs ls vs‖ ≤ ‖vec3 (zb + ez) (lb + el) (vb + ev) - vec3 zs ls vs‖ := by
    refine abs_le_of_sq_le_sq' ?_ (norm_nonneg _) |>.2
    rw [vec3_dist2, vec3_dist2]
    refine le_trans ?_ hf
    have : 0 ≤ dist2 z l (v - m) (zb + ez) (lb + el) (vb + ev) := by
      rw [← vec3_dist2]; exact sq_nonneg _
    linarith
  have k2 : ‖vec3 (zb + ez) (lb + el) (vb + ev) - vec3 zs ls vs‖ ≤
      ‖vec3 zb lb vb - vec3 zs ls vs‖ + ‖vec3 ez el ev‖ := by
    have e : vec3 (zb + ez) (lb + el) (vb + ev) - vec3 zs ls vs =
        (vec3 zb lb vb - vec3 zs ls vs) + vec3 ez el ev := by
      rw [← vec3_add]; abel
    rw [e]
    exact norm_add_le _ _
  have k3 : ‖vec3 z l v - vec3 zs ls vs‖ ≤ ‖vec3 z l (v - m) - vec3 zs ls vs‖ + euclid m := by
    have e : vec3 z l v - vec3 zs ls vs = (vec3 z l (v - m) - vec3 zs ls vs) + vec3 0 0 m := by
      rw [vec3_sub, vec3_sub, vec3_add]
      congr 1
      · simp
      · simp
      · ext i; simp; ring
    rw [e]
    refine (norm_add_le _ _).trans (add_le_add le_rfl ?_)
    rw [vec3_v]
  linarith

/-- The residual of the subproblem at its centre. -/
theorem subRes_start {alpha sigma : ℝ} (ha : 0 < alpha) (ha' : alpha < 1)
    {zb lb vb} {zs ls vs} (hk : q.KKT zs ls vs) {M rho : ℝ} (hM0 : 0 ≤ M)
    (hM : ∀ i, q.b i - (q.A *ᵥ zs) i ≤ M ∧ vs i ≤ M)
    (hd : ‖vec3 zb lb vb - vec3 zs ls vs‖ ≤ rho) :
    ‖q.subRes alpha sigma zb lb vb zb lb vb‖ ≤ q.startResidual M rho := by
  have hA := q.sizeA_nonneg
  have hH := q.sizeH_nonneg
  have hG := q.sizeG_nonneg
  rw [vec3_sub] at hd
  obtain ⟨d1, d2, d3⟩ := euclid_le_vec3 (zb - zs) (lb - ls) (vb - vs)
  have d1 := d1.trans hd
  have d2 := d2.trans hd
  have d3 := d3.trans hd
  have hr0 : 0 ≤ rho := (norm_nonneg _).trans hd
  set B := M + (1 + q.sizeA) * rho with hB
  have hB0 : 0 ≤ B := by positivity
  have hsplit : q.subRes alpha sigma zb lb vb zb lb vb =
      vec3 (q.lagrangeGrad zb lb vb) 0 0 + vec3 0 (q.h - q.G *ᵥ zb) 0 +
        vec3 0 0 (fun i => pfb (q.pairA sigma vb zb vb i) (vb i) alpha) := by
    unfold subRes
    rw [vec3_add, vec3_add]
    congr 1 <;> simp
  have hz : euclid (q.lagrangeGrad zb lb vb) ≤ (q.sizeH + q.sizeG + q.sizeA) * rho := by
    have e : q.lagrangeGrad zb lb vb = q.H *ᵥ (zb - zs) + q.Gᵀ *ᵥ (lb - ls) + q.Aᵀ *ᵥ (vb - vs) := by
      have := hk.stationary
      unfold lagrangeGrad at this ⊢
      rw [mulVec_sub, mulVec_sub, mulVec_sub, ← sub_zero (q.H *ᵥ zb + _ + _ + _), ← this]
      abel
    rw [e]
    refine (euclid_add_le _ _).trans ?_
    have := euclid_add_le (q.H *ᵥ (zb - zs)) (q.Gᵀ *ᵥ (lb - ls))
    have := (q.sizeH_mul (zb - zs)).trans (mul_le_mul_of_nonneg_left d1 hH)
    have := (q.sizeG_mul_transpose (lb - ls)).trans (mul_le_mul_of_nonneg_left d2 hG)
    have := (q.sizeA_mul_transpose (vb - vs)).trans (mul_le_mul_of_nonneg_left d3 hA)
    linarith
  have hl : euclid (q.h - q.G *ᵥ zb) ≤ q.sizeG * rho := by
    have e : q.h - q.G *ᵥ zb = -(q.G *ᵥ (zb - zs)) := by
      rw [mulVec_sub, hk.feasible.eq]; abel
    rw [e, euclid_neg]
    exact (q.sizeG_mul _).trans (mul_le_mul_of_nonneg_left d1 hG)
  have hv : euclid (fun i => pfb (q.pairA sigma vb zb vb i) (vb i) alpha) ≤
      (4 + 2 * B) * (1 + q.sizeA) * rho := by
    set w : Fin nv → ℝ := fun i => |(q.A *ᵥ (zb - zs)) i| + |(vb - vs) i| with hw
    have hwle : euclid w ≤ (1 + q.sizeA) * rho := by
      have e : w = (fun i => |(q.A *ᵥ (zb - zs)) i|) + (fun i => |(vb - vs) i|) := rfl
      rw [e]
      refine (euclid_add_le _ _).trans ?_
      have e2 : ∀ w : Fin nv → ℝ, euclid (fun i => |w i|) ≤ euclid w := fun w =>
        euclid_mono fun i => by rw [abs_abs]
      have := e2 (q.A *ᵥ (zb - zs))
      have := e2 (vb - vs)
      have := (q.sizeA_mul (zb - zs)).trans (mul_le_mul_of_nonneg_left d1 hA)
      linarith
    have e : (4 + 2 * B) * (1 + q.sizeA) * rho = (4 + 2 * B) * ((1 + q.sizeA) * rho) := by ring
    rw [e]
    refine le_trans (euclid_mono (b := (4 + 2 * B) • w) fun i => ?_) ?_
    · rw [Pi.smul_apply, smul_eq_mul, abs_mul, abs_of_nonneg (by positivity : 0 ≤ 4 + 2 * B),
        abs_of_nonneg (by simp only [hw]; positivity : 0 ≤ w i)]
      have hpa : q.pairA sigma vb zb vb i = (q.b i - (q.A *ᵥ zs) i) + (-(q.A *ᵥ (zb - zs)) i) := by
        unfold pairA
        rw [mulVec_sub, Pi.sub_apply]; ring
      have hpb : vb i = vs i + (vb - vs) i := by simp
      have h0 : pfb (q.b i - (q.A *ᵥ zs) i) (vs i) alpha = 0 := by
        rw [pfb_zero ha ha']
        refine ⟨by linarith [hk.feasible.ineq i], hk.dual i, ?_⟩
        rcases hk.complementary i with h | h
        · exact .inl h
        · exact .inr (by linarith)
      have hvs : |vs i| ≤ B := by
        rw [abs_of_nonneg (hk.dual i)]
        have : 0 ≤ (1 + q.sizeA) * rho := by positivity
        linarith [(hM i).2]
      have hAe := abs_le_euclid (q.A *ᵥ (zb - zs)) i
      have hAr := (q.sizeA_mul (zb - zs)).trans (mul_le_mul_of_nonneg_left d1 hA)
      have ha2 : |(q.b i - (q.A *ᵥ zs) i) + (-(q.A *ᵥ (zb - zs)) i)| ≤ B := by
        refine (abs_add_le _ _).trans ?_
        rw [abs_neg, abs_of_nonneg (by linarith [hk.feasible.ineq i])]
        linarith [(hM i).1]
      have := pfb_lipschitz (alpha := alpha) ha ha' (a := q.b i - (q.A *ᵥ zs) i) (b := vs i)
        (p := -(q.A *ᵥ (zb - zs)) i) (r := (vb - vs) i) (B := B) (dl := w i) hvs ha2
        (by rw [abs_neg]; simp only [hw]; linarith [abs_nonneg ((vb - vs) i)])
        (by simp only [hw]; linarith [abs_nonneg ((q.A *ᵥ (zb - zs)) i)])
      rw [h0, sub_zero, ← hpa, ← hpb] at this
      exact this
    · rw [euclid_smul, abs_of_nonneg (by positivity)]
      exact mul_le_mul_of_nonneg_left hwle (by positivity)
  rw [hsplit]
  have h5 := norm_add₃_le (a := vec3 (q.lagrangeGrad zb lb vb) (0 : Fin nl → ℝ) (0 : Fin nv → ℝ))
    (b := vec3 (0 : Fin nz → ℝ) (q.h - q.G *ᵥ zb) (0 : Fin nv → ℝ))
    (c := vec3 (0 : Fin nz → ℝ) (0 : Fin nl → ℝ) (fun i => pfb (q.pairA sigma vb zb vb i) (vb i) alpha))
  rw [vec3_z, vec3_l, vec3_v] at h5
  refine h5.trans ?_
  unfold startResidual
  rw [← hB]
  have : (q.sizeH + 2 * q.sizeG + q.sizeA + (4 + 2 * B) * (1 + q.sizeA)) * rho =
    (q.sizeH + q.sizeG + q.sizeA) * rho + q.sizeG * rho + (4 + 2 * B) * (1 + q.sizeA) * rho := by ring
  rw [this]
  linarith

/-- The residual after a step of length `t` along the Newton direction. -/
theorem NewtonDir.step {alpha sigma : ℝ} (ha : 0 < alpha) (ha' : alpha < 1) (hs : 0 < sigma)
    {zb lb vb z l v dz dl dv} (h : q.NewtonDir alpha sigma zb lb vb z l v dz dl dv) {t B R : ℝ}
    (ht : 0 ≤ t) (ht1 : t ≤ 1) (hR : (1 + q.sizeA + sigma) * ‖vec3 dz dl dv‖ ≤ R)
    (hRB : R ≤ 2 * B)
    (hB : ∀ i, |q.pairA sigma vb z v i| + R ≤ B ∧ |v i| ≤ B) :
    ‖q.subRes alpha sigma zb lb vb (z + t • dz) (l + t • dl) (v + t • dv)‖ ^ 2 ≤
      (1 - 2 * t + t ^ 2) * ‖q.subRes alpha sigma zb lb vb z l v‖ ^ 2 +
      nv * (22 * (1 + B) ^ 2 * (t * R) ^ 2 + 36 * 1e-13 * (1 + B) * (t * R)) := by
  have hA := q.sizeA_nonneg
  obtain ⟨d1, d2, d3⟩ := euclid_le_vec3 dz dl dv
  have hn0 : 0 ≤ ‖vec3 dz dl dv‖ := norm_nonneg _
  have hR0 : 0 ≤ R := le_trans (by positivity) hR
  have hda : ∀ i, |-(q.A *ᵥ dz) i + sigma * dv i| ≤ R := by
    intro i
    refine (abs_add_le _ _).trans ?_
    rw [abs_neg, abs_mul, abs_of_pos hs]
    have e1 := (abs_le_euclid (q.A *ᵥ dz) i).trans ((q.sizeA_mul dz).trans
      (mul_le_mul_of_nonneg_left d1 hA))
    have e2 := mul_le_mul_of_nonneg_left ((abs_le_euclid dv i).trans d3) hs.le
    nlinarith
  have hdv : ∀ i, |dv i| ≤ R := by
    intro i
    have e2 := (abs_le_euclid dv i).trans d3
    have := mul_nonneg (add_nonneg hA hs.le) hn0
    nlinarith
  have ez : q.lagrangeGrad (z + t • dz) (l + t • dl) (v + t • dv) + sigma • (z + t • dz - zb) =
      (1 - t) • (q.lagrangeGrad z l v + sigma • (z - zb)) := by
    have hg := h.grad
    have e : q.lagrangeGrad (z + t • dz) (l + t • dl) (v + t • dv) + sigma • (z + t • dz - zb) =
        (q.lagrangeGrad z l v + sigma • (z - zb)) +
          t • (q.H *ᵥ dz + q.Gᵀ *ᵥ dl + q.Aᵀ *ᵥ dv + sigma • dz) := by
      unfold lagrangeGrad
      simp only [mulVec_add, mulVec_smul]
      module
    rw [e, hg]
    module
  have el : q.h - q.G *ᵥ (z + t • dz) + sigma • (l + t • dl - lb) =
      (1 - t) • (q.h - q.G *ᵥ z + sigma • (l - lb)) := by
    have hg := h.eq
    have e : q.h - q.G *ᵥ (z + t • dz) + sigma • (l + t • dl - lb) =
        (q.h - q.G *ᵥ z + sigma • (l - lb)) + t • (-(q.G *ᵥ dz) + sigma • dl) := by
      simp only [mulVec_add, mulVec_smul]
      module
    rw [e, hg]
    module
  have ev : ∀ i, pfb (q.pairA sigma vb (z + t • dz) (v + t • dv) i) ((v + t • dv) i) alpha ^ 2 ≤
      (1 - 2 * t) * pfb (q.pairA sigma vb z v i) (v i) alpha ^ 2 +
        (22 * (1 + B) ^ 2 * (t * R) ^ 2 + 36 * 1e-13 * (1 + B) * (t * R)) := by
    intro i
    have ea : q.pairA sigma vb (z + t • dz) (v + t • dv) i =
        q.pairA sigma vb z v i + t * (-(q.A *ᵥ dz) i + sigma * dv i) := by
      unfold pairA
      simp only [mulVec_add, mulVec_smul, Pi.add_apply, Pi.smul_apply, smul_eq_mul]
      ring
    have eb : (v + t • dv) i = v i + t * dv i := rfl
    rw [ea, eb]
    have htda : |t * (-(q.A *ᵥ dz) i + sigma * dv i)| ≤ t * R := by
      rw [abs_mul, abs_of_nonneg ht]; exact mul_le_mul_of_nonneg_left (hda i) ht
    have htdv : |t * dv i| ≤ t * R := by
      rw [abs_mul, abs_of_nonneg ht]; exact mul_le_mul_of_nonneg_left (hdv i) ht
    have htR : t * R ≤ R := by nlinarith
    have hk := pfb_sq_step (alpha := alpha) ha ha' (a := q.pairA sigma vb z v i) (b := v i)
      (p := t * (-(q.A *ᵥ dz) i + sigma * dv i)) (r := t * dv i) (B := B) (dl := t * R)
      (by linarith [(hB i).1]) (hB i).2
      ((abs_add_le _ _).trans (by linarith [(hB i).1])) htda htdv (htR.trans hRB)
    have hcm : (pfbGradient alpha (q.pairA sigma vb z v i) (v i)).1 * (-(q.A *ᵥ dz) i + sigma * dv i) +
        (pfbGradient alpha (q.pairA sigma vb z v i) (v i)).2 * dv i =
        -pfb (q.pairA sigma vb z v i) (v i) alpha := h.compl i
    have e3 : (pfbGradient alpha (q.pairA sigma vb z v i) (v i)).1 * (t * (-(q.A *ᵥ dz) i + sigma * dv i)) +
        (pfbGradient alpha (q.pairA sigma vb z v i) (v i)).2 * (t * dv i) =
        t * -pfb (q.pairA sigma vb z v i) (v i) alpha := by
      linear_combination t * hcm
    rw [e3] at hk
    refine hk.trans (le_of_eq ?_)
    ring
  unfold subRes
  rw [vec3_norm_sq, vec3_norm_sq, ez, el]
  have sv : (fun i => pfb (q.pairA sigma vb (z + t • dz) (v + t • dv) i) ((v + t • dv) i) alpha) ⬝ᵥ
      (fun i => pfb (q.pairA sigma vb (z + t • dz) (v + t • dv) i) ((v + t • dv) i) alpha) ≤
      (1 - 2 * t) * ((fun i => pfb (q.pairA sigma vb z v i) (v i) alpha) ⬝ᵥ
        (fun i => pfb (q.pairA sigma vb z v i) (v i) alpha)) +
      nv * (22 * (1 + B) ^ 2 * (t * R) ^ 2 + 36 * 1e-13 * (1 + B) * (t * R)) := by
    simp only [dotProduct, ← sq]
    refine (Finset.sum_le_sum fun i _ => ev i).trans ?_
    rw [Finset.sum_add_distrib, ← Finset.mul_sum, Finset.sum_const, Finset.card_univ, Fintype.card_fin,
      nsmul_eq_mul]
  simp only [smul_dotProduct, dotProduct_smul, smul_eq_mul]
  have hvv := dot_self_nonneg (fun i => pfb (q.pairA sigma vb z v i) (v i) alpha)
  have := mul_nonneg (sq_nonneg t) hvv
  nlinarith

theorem startResidual_nonneg (q : QP nz nl nv) {M rho : ℝ} (hM : 0 ≤ M) (hr : 0 ≤ rho) :
    0 ≤ q.startResidual M rho := by
  have := q.sizeA_nonneg
  have := q.sizeH_nonneg
  have := q.sizeG_nonneg
  unfold startResidual
  positivity

theorem pairSpeed_pos (q : QP nz nl nv) {o : Params ℝ} (ha : 0 < o.alpha) (hs : 0 < o.sigma0) :
    0 < q.pairSpeed o := by
  have := q.sizeA_nonneg
  have := q.errFactor_pos ha hs
  unfold pairSpeed
  positivity

theorem pairBound_nonneg (q : QP nz nl nv) {o : Params ℝ} (ha : 0 < o.alpha) (hs : 0 < o.sigma0)
    {M rho : ℝ} (hM : 0 ≤ M) (hr : 0 ≤ rho) : 0 ≤ q.pairBound o M rho := by
  have := q.sizeA_nonneg
  have := q.errFactor_pos ha hs
  have := q.pairSpeed_pos ha hs
  have := q.startResidual_nonneg hM hr
  unfold pairBound
  positivity

set_option maxHeartbeats 800000 in
/-- Steps not longer than `safeStep` decrease the residual sufficiently. -/
theorem NewtonDir.decrease (hc : q.Convex) {o : Params ℝ} (ha : 0 < o.alpha) (ha' : o.alpha < 1)
    (hs : 0 < o.sigma0) {zb lb vb z l v dz dl dv}
    (h : q.NewtonDir o.alpha o.sigma0 zb lb vb z l v dz dl dv) {zs ls vs} (hk : q.KKT zs ls vs)
    {M rho : ℝ} (hM0 : 0 ≤ M) (hM : ∀ i, q.b i - (q.A *ᵥ zs) i ≤ M ∧ vs i ≤ M)
    (hd : ‖vec3 zb lb vb - vec3 zs ls vs‖ ≤ rho)
    (hF : ‖q.subRes o.alpha o.sigma0 zb lb vb z l v‖ ≤ q.startResidual M rho)
    (heps : o.innerTolMin ≤ ‖q.subRes o.alpha o.sigma0 zb lb vb z l v‖) (heta : o.eta < 1)
    (hband : 36 * 1e-13 * nv * (1 + q.pairBound o M rho) * q.pairSpeed o ≤ (1 - o.eta) * o.innerTolMin)
    {t : ℝ} (ht : 0 ≤ t) (ht1 : t ≤ 1) (hts : t ≤ q.safeStep o M rho) :
    ‖q.subRes o.alpha o.sigma0 zb lb vb (z + t • dz) (l + t • dl) (v + t • dv)‖ ^ 2 ≤
      (1 - 2 * t * o.eta) * ‖q.subRes o.alpha o.sigma0 zb lb vb z l v‖ ^ 2 := by
  have hA := q.sizeA_nonneg
  have hkap := q.errFactor_pos ha hs
  have hsp := q.pairSpeed_pos ha hs
  have hr0 : 0 ≤ rho := (norm_nonneg _).trans hd
  have hF0 := q.startResidual_nonneg hM0 hr0
  have hB0 := q.pairBound_nonneg ha hs hM0 hr0
  have hnear := subRes_near (z := z) (l := l) (v := v) (zb := zb) (lb := lb) (vb := vb) hc ha ha' hs hk
  set n := ‖q.subRes o.alpha o.sigma0 zb lb vb z l v‖ with hn
  have hn0 : 0 ≤ n := norm_nonneg _
  set F0 := q.startResidual M rho with hF0def
  set c := q.pairSpeed o with hcdef
  set B := q.pairBound o M rho with hBdef
  set kap := q.errFactor o.alpha o.sigma0 with hkapdef
  have hdir : ‖vec3 dz dl dv‖ ≤ kap * n := by
    have h1 := NewtonSystem.bound hc ha hs (fun i => (pfbGradient_nonneg ha ha' _ _).1)
      (fun i => (pfbGradient_nonneg ha ha' _ _).2) (fun i => pfbGradient_sum ha ha' _ _) h
    refine h1.trans (le_of_eq ?_)
    rw [hn, subRes, vec3_norm, vec3_norm]
    congr 3
    · simp only [neg_dotProduct_neg]
    · simp [dotProduct]
  have hR : (1 + q.sizeA + o.sigma0) * ‖vec3 dz dl dv‖ ≤ c * n := by
    rw [hcdef, pairSpeed, mul_assoc]
    exact mul_le_mul_of_nonneg_left hdir (by positivity)
  have hcn : c * n ≤ c * F0 := mul_le_mul_of_nonneg_left hF hsp.le
  set rho1 := rho + kap * F0 with hrho1
  have hrho10 : 0 ≤ rho1 := by positivity
  have hx : ‖vec3 z l v - vec3 zs ls vs‖ ≤ rho1 := by
    have := mul_le_mul_of_nonneg_left hF hkap.le
    linarith
  have hBeq : B = M + (1 + q.sizeA + 2 * o.sigma0) * rho1 + c * F0 := rfl
  have hcB : c * F0 ≤ B := by
    have : 0 ≤ (1 + q.sizeA + 2 * o.sigma0) * rho1 := by positivity
    linarith
  rw [vec3_sub] at hx hd
  obtain ⟨x1, -, x3⟩ := euclid_le_vec3 (z - zs) (l - ls) (v - vs)
  obtain ⟨-, -, b3⟩ := euclid_le_vec3 (zb - zs) (lb - ls) (vb - vs)
  have x1 := x1.trans hx
  have x3 := x3.trans hx
  have b3 := b3.trans hd
  have hrr : rho ≤ rho1 := by
    have : 0 ≤ kap * F0 := by positivity
    linarith
  have hpairs : ∀ i, |q.pairA o.sigma0 vb z v i| + c * n ≤ B ∧ |v i| ≤ B := by
    intro i
    have ev : |v i - vs i| ≤ rho1 := (abs_le_euclid (v - vs) i).trans x3
    have evb : |vb i - vs i| ≤ rho1 := ((abs_le_euclid (vb - vs) i).trans b3).trans hrr
    have eA : |(q.A *ᵥ (z - zs)) i| ≤ q.sizeA * rho1 :=
      (abs_le_euclid _ i).trans ((q.sizeA_mul _).trans (mul_le_mul_of_nonneg_left x1 hA))
    have hvs := hk.dual i
    have hys : 0 ≤ q.b i - (q.A *ᵥ zs) i := by linarith [hk.feasible.ineq i]
    have p1 : 0 ≤ q.sizeA * rho1 := by positivity
    have p2 : 0 ≤ o.sigma0 * rho1 := by positivity
    constructor
    · have e : q.pairA o.sigma0 vb z v i = (q.b i - (q.A *ᵥ zs) i) - (q.A *ᵥ (z - zs)) i +
          o.sigma0 * ((v i - vs i) - (vb i - vs i)) := by
        unfold pairA
        rw [mulVec_sub, Pi.sub_apply]; ring
      have e1 : |o.sigma0 * ((v i - vs i) - (vb i - vs i))| ≤ o.sigma0 * (2 * rho1) := by
        rw [abs_mul, abs_of_pos hs]
        refine mul_le_mul_of_nonneg_left ((abs_sub _ _).trans (by linarith)) hs.le
      have e2 : |(q.b i - (q.A *ᵥ zs) i) - (q.A *ᵥ (z - zs)) i| ≤ M + q.sizeA * rho1 := by
        refine (abs_sub _ _).trans ?_
        rw [abs_of_nonneg hys]
        linarith [(hM i).1]
      rw [e]
      have := abs_add_le ((q.b i - (q.A *ᵥ zs) i) - (q.A *ᵥ (z - zs)) i)
        (o.sigma0 * ((v i - vs i) - (vb i - vs i)))
      rw [hBeq]
      linarith
    · have e : v i = vs i + (v i - vs i) := by ring
      have := abs_add_le (vs i) (v i - vs i)
      rw [← e, abs_of_nonneg hvs] at this
      have := (hM i).2
      have : 0 ≤ c * F0 := by positivity
      rw [hBeq]
      linarith
  have hstep := h.step ha ha' hs ht ht1 hR (by linarith) hpairs
  refine hstep.trans ?_
  rw [← hn]
  have hden : 0 < 1 + 22 * nv * (1 + B) ^ 2 * c ^ 2 := by positivity
  have h1 : t * (1 + 22 * nv * (1 + B) ^ 2 * c ^ 2) ≤ 1 - o.eta := by
    have : q.safeStep o M rho = (1 - o.eta) / (1 + 22 * nv * (1 + B) ^ 2 * c ^ 2) := rfl
    rw [this, le_div_iff₀ hden] at hts
    exact hts
  have h2 : t * n ^ 2 * (t * (1 + 22 * nv * (1 + B) ^ 2 * c ^ 2)) ≤ t * n ^ 2 * (1 - o.eta) :=
    mul_le_mul_of_nonneg_left h1 (by positivity)
  have h3 : t * n * (36 * 1e-13 * nv * (1 + B) * c) ≤ t * n * ((1 - o.eta) * n) := by
    refine mul_le_mul_of_nonneg_left (hband.trans ?_) (by positivity)
    exact mul_le_mul_of_nonneg_left heps (by linarith)
  have e : (1 - 2 * t + t ^ 2) * n ^ 2 + nv * (22 * (1 + B) ^ 2 * (t * (c * n)) ^ 2 +
      36 * 1e-13 * (1 + B) * (t * (c * n))) = (1 - 2 * t) * n ^ 2 +
      t * n ^ 2 * (t * (1 + 22 * nv * (1 + B) ^ 2 * c ^ 2)) + t * n * (36 * 1e-13 * nv * (1 + B) * c) := by
    ring
  rw [e]
  have e2 : (1 - 2 * t * o.eta) * n ^ 2 = (1 - 2 * t) * n ^ 2 + t * n ^ 2 * (1 - o.eta) +
    t * n * ((1 - o.eta) * n) := by ring
  rw [e2]
  linarith

end QP
end Fbstab
