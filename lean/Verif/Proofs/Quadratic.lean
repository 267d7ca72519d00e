import Verif.Proofs.NewtonMath
import Verif.Proofs.ProxExists
import Verif.Spec.Quadratic

/-!
# Quadratic convergence of Newton's method close to a strictly complementary solution

One Newton step of a proximal subproblem, compared with the solution of the subproblem.
-/

namespace Fbstab
open Matrix

/-- The error of the linearisation of the penalized Fischer-Burmeister function, seen from a
complementary pair. -/
theorem pfb_semismooth {alpha : ℝ} (h0 : 0 < alpha) (h1 : alpha < 1) {a b a0 b0 r0 : ℝ} (hr : 1e-13 ≤ r0)
    (hh : r0 ≤ hyp a b) (ha0 : 0 ≤ a0) (hb0 : 0 ≤ b0) (hab : a0 = 0 ∨ b0 = 0) :
    |pfb a b alpha + (pfbGradient alpha a b).1 * (a0 - a) + (pfbGradient alpha a b).2 * (b0 - b)| ≤
      (1 / r0 + 1) * ((a - a0) ^ 2 + (b - b0) ^ 2) := by
  have hr0 : (0 : ℝ) < r0 := lt_of_lt_of_le (by norm_num) hr
  have hp : 0 < hyp a b := hr0.trans_le hh
  set S := (a - a0) ^ 2 + (b - b0) ^ 2 with hS
  have hS0 : 0 ≤ S := by positivity
  have hsq := hyp_sq a b
  set r := hyp a b with hrdef
  -- the Fischer-Burmeister part
  set F := a0 + b0 - (a * a0 + b * b0) / r with hF
  have hab0 : a0 * b0 = 0 := by rcases hab with h | h <;> simp [h]
  have hgap : r * F = S / 2 - (r - (a0 + b0)) ^ 2 / 2 := by
    rw [hF, mul_sub, mul_div_cancel₀ _ hp.ne', hS]
    nlinarith
  have hF1 : F ≤ 1 / (2 * r0) * S := by
    have : r * F ≤ S / 2 := by rw [hgap]; nlinarith [sq_nonneg (r - (a0 + b0))]
    have h2 : F ≤ S / 2 / r := by rw [le_div_iff₀ hp]; linarith
    refine h2.trans ?_
    have h3 : S / 2 / r ≤ S / 2 / r0 := div_le_div_of_nonneg_left (by positivity) hr0 hh
    refine h3.trans (le_of_eq ?_)
    field_simp
  have hF0 : 0 ≤ F := by
    have hc : (a * a0 + b * b0) ≤ r * (a0 + b0) := by
      have h1 := abs_le_hyp a b
      have h2 := abs_le_hyp' a b
      rw [← hrdef] at h1 h2
      have k1 := mul_le_mul_of_nonneg_right ((le_abs_self a).trans h1) ha0
      have k2 := mul_le_mul_of_nonneg_right ((le_abs_self b).trans h2) hb0
      linarith
    rw [hF, sub_nonneg, div_le_iff₀ hp]
    linarith
  -- the penalty part
  have hP : |(if 0 < a ∧ 0 < b then b * a0 + a * b0 - a * b else 0)| ≤ S / 2 := by
    split_ifs with hc
    · rcases hab with h | h
      · rw [abs_le, hS, h]; constructor <;> nlinarith [sq_nonneg (a + (b - b0)), sq_nonneg (a - (b - b0))]
      · rw [abs_le, hS, h]; constructor <;> nlinarith [sq_nonneg (b + (a - a0)), sq_nonneg (b - (a - a0))]
    · rw [abs_zero]; positivity
  have hg := pfbGradient_eq (alpha := alpha) (a := a) (b := b) (hr.trans hh)
  have key : pfb a b alpha + (pfbGradient alpha a b).1 * (a0 - a) + (pfbGradient alpha a b).2 * (b0 - b) =
      alpha * F + (1 - alpha) * (if 0 < a ∧ 0 < b then b * a0 + a * b0 - a * b else 0) := by
    have hrr : r * r = a * a + b * b := hsq
    have e1 : a / r * a + b / r * b = r := by
      field_simp; rw [pow_two, pow_two, pow_two]; linarith
    rw [hg, pfb_hyp, ← hrdef]
    unfold pfbGrad
    change _ = alpha * (a0 + b0 - (a * a0 + b * b0) / r) + _
    have e2 : (a * a0 + b * b0) / r = a / r * a0 + b / r * b0 := by ring
    rw [e2]
    have e3 : √(a * a + b * b) = r := rfl
    rw [e3]
    split_ifs with hc
    · rw [max_eq_right hc.1.le, max_eq_right hc.2.le]
      simp only
      linear_combination alpha * e1
    · have : max 0 a * max 0 b = 0 := by
        rcases not_and_or.1 hc with h | h
        · rw [max_eq_left (not_lt.1 h), zero_mul]
        · rw [max_eq_left (not_lt.1 h), mul_zero]
      simp only
      linear_combination alpha * e1 + (1 - alpha) * this
  rw [key]
  refine (abs_add_le _ _).trans ?_
  rw [abs_mul, abs_mul, abs_of_pos h0, abs_of_pos (sub_pos.2 h1), abs_of_nonneg hF0]
  have k1 : alpha * F ≤ 1 * (1 / (2 * r0) * S) := mul_le_mul h1.le hF1 hF0 zero_le_one
  have k2 := mul_le_mul (show 1 - alpha ≤ 1 by linarith) hP (abs_nonneg _) zero_le_one
  have e : 1 / (2 * r0) * S = 1 / r0 * S / 2 := by field_simp
  have : 0 ≤ 1 / r0 * S := by positivity
  rw [e] at k1
  nlinarith

namespace QP
variable {nz nl nv : Nat} {q : QP nz nl nv}

/-- The square root of a sum of squares is not larger than the sum. -/
theorem euclid_le_sum {n : Nat} {x y : Fin n → ℝ} {C : ℝ} (hC : 0 ≤ C) (h : ∀ i, |x i| ≤ C * y i ^ 2) :
    euclid x ≤ C * euclid y ^ 2 := by
  have hy : euclid y ^ 2 = ∑ i, y i ^ 2 := by
    rw [sq, euclid_sq]; exact Finset.sum_congr rfl fun i _ => (sq _).symm
  rw [hy]
  refine abs_le_of_sq_le_sq' ?_ (mul_nonneg hC (Finset.sum_nonneg fun i _ => sq_nonneg _)) |>.2
  rw [sq, euclid_sq, Finset.mul_sum]
  have hnn : ∀ i, 0 ≤ C * y i ^ 2 := fun i => by positivity
  calc x ⬝ᵥ x = ∑ i, |x i| ^ 2 := Finset.sum_congr rfl fun i _ => by rw [sq_abs, sq]
    _ ≤ ∑ i, (C * y i ^ 2) ^ 2 := Finset.sum_le_sum fun i _ => pow_le_pow_left₀ (abs_nonneg _) (h i) 2
    _ ≤ (∑ i, C * y i ^ 2) ^ 2 := Finset.sum_sq_le_sq_sum_of_nonneg fun i _ => hnn i

/-- How much the complementarity pairs move when the point moves. -/
theorem pairs_move (q : QP nz nl nv) {sigma : ℝ} (hs : 0 < sigma) (uz : Fin nz → ℝ) (ul : Fin nl → ℝ)
    (uv : Fin nv → ℝ) :
    euclid (fun i => √((-(q.A *ᵥ uz) i + sigma * uv i) ^ 2 + uv i ^ 2)) ≤
      (1 + q.sizeA + sigma) * ‖vec3 uz ul uv‖ := by
  have hA := q.sizeA_nonneg
  obtain ⟨d1, -, d3⟩ := euclid_le_vec3 uz ul uv
  set da : Fin nv → ℝ := -(q.A *ᵥ uz) + sigma • uv with hda
  have e2 : ∀ w : Fin nv → ℝ, euclid (fun i => |w i|) ≤ euclid w := fun w =>
    euclid_mono fun i => by rw [abs_abs]
  have h1 : euclid (fun i => √((-(q.A *ᵥ uz) i + sigma * uv i) ^ 2 + uv i ^ 2)) ≤
      euclid ((fun i => |da i|) + fun i => |uv i|) := by
    refine euclid_mono fun i => ?_
    rw [abs_of_nonneg (Real.sqrt_nonneg _), Pi.add_apply,
      abs_of_nonneg (add_nonneg (abs_nonneg _) (abs_nonneg _))]
    refine Real.sqrt_le_iff.2 ⟨by positivity, ?_⟩
    have : da i = -(q.A *ᵥ uz) i + sigma * uv i := rfl
    rw [this]
    have h1 := sq_abs (-(q.A *ᵥ uz) i + sigma * uv i)
    have h2 := sq_abs (uv i)
    nlinarith [mul_nonneg (abs_nonneg (-(q.A *ᵥ uz) i + sigma * uv i)) (abs_nonneg (uv i))]
  refine h1.trans ((euclid_add_le _ _).trans ?_)
  have h3 := e2 da
  have h4 := e2 uv
  have h5 : euclid da ≤ q.sizeA * euclid uz + sigma * euclid uv := by
    refine (euclid_add_le _ _).trans ?_
    rw [euclid_neg, euclid_smul, abs_of_pos hs]
    linarith [q.sizeA_mul uz]
  have := mul_le_mul_of_nonneg_left d1 hA
  have := mul_le_mul_of_nonneg_left d3 hs.le
  linarith

/-- Where the subproblem is solved, its residual vanishes. -/
theorem ProxKKT.pfb_zero {alpha sigma : ℝ} (ha : 0 < alpha) (ha' : alpha < 1) {zb lb vb z l v}
    (h : q.ProxKKT sigma zb lb vb z l v) (i : Fin nv) : pfb (q.pairA sigma vb z v i) (v i) alpha = 0 := by
  rw [Fbstab.pfb_zero ha ha']
  exact ⟨h.margin i, h.dual i, h.complementary i⟩

/-- Points of a subproblem with a small residual are close to its solution. -/
theorem subRes_near_prox (hc : q.Convex) {alpha sigma : ℝ} (ha : 0 < alpha) (ha' : alpha < 1) (hs : 0 < sigma)
    {zb lb vb z l v} {zw lw vw} (hw : q.ProxKKT sigma zb lb vb zw lw vw) :
    ‖vec3 z l v - vec3 zw lw vw‖ ≤ q.errFactor alpha sigma * ‖q.subRes alpha sigma zb lb vb z l v‖ := by
  set q' : QP nz nl nv := { q with
    f := q.f + sigma • (zw - zb), h := q.h + sigma • (lw - lb), b := q.b + sigma • (vw - vb) } with hq
  have hc' : q'.Convex := ⟨hc.1, hc.2⟩
  have hk : q'.KKT zw lw vw := by
    refine ⟨?_, ⟨?_, ?_⟩, hw.dual, ?_⟩
    · rw [← hw.stationary]
      show q.H *ᵥ zw + (q.f + sigma • (zw - zb)) + q.Gᵀ *ᵥ lw + q.Aᵀ *ᵥ vw = _
      unfold lagrangeGrad; abel
    · show q.G *ᵥ zw = q.h + sigma • (lw - lb)
      rw [← sub_eq_zero, ← neg_eq_zero, ← hw.eq]; abel
    · intro i
      have := hw.margin i
      show (q.A *ᵥ zw) i ≤ q.b i + sigma * (vw i - vb i)
      linarith
    · intro i
      rcases hw.complementary i with h | h
      · exact .inl h
      · right
        show (q.A *ᵥ zw) i = q.b i + sigma * (vw i - vb i)
        linarith
  have e : q'.subRes alpha sigma zw lw vw z l v = q.subRes alpha sigma zb lb vb z l v := by
    unfold subRes
    congr 1
    · show q.H *ᵥ z + (q.f + sigma • (zw - zb)) + q.Gᵀ *ᵥ l + q.Aᵀ *ᵥ v + sigma • (z - zw) = _
      unfold lagrangeGrad; module
    · show q.h + sigma • (lw - lb) - q.G *ᵥ z + sigma • (l - lw) = _
      module
    · ext i
      have : q'.pairA sigma vw z v i = q.pairA sigma vb z v i := by
        show q.b i + sigma * (vw i - vb i) - (q.A *ᵥ z) i + sigma * (v i - vw i) = _
        unfold pairA; ring
      rw [this]
  have h := subRes_near (q := q') hc' ha ha' hs (zb := zw) (lb := lw) (vb := vw) (z := z) (l := l) (v := v) hk
  rw [e, sub_self, norm_zero, zero_add] at h
  exact h

/-- The Newton step: the distance from the solution of the subproblem is squared, up to a factor. -/
theorem NewtonDir.quadratic (hc : q.Convex) {alpha sigma : ℝ} (ha : 0 < alpha) (ha' : alpha < 1) (hs : 0 < sigma)
    {zb lb vb z l v dz dl dv} (h : q.NewtonDir alpha sigma zb lb vb z l v dz dl dv)
    {zw lw vw} (hw : q.ProxKKT sigma zb lb vb zw lw vw) {r0 : ℝ} (hr : 1e-13 ≤ r0)
    (hm : ∀ i, r0 + (1 + q.sizeA + sigma) * ‖vec3 z l v - vec3 zw lw vw‖ ≤ max (q.pairA sigma vb zw vw i) (vw i)) :
    ‖vec3 (z + dz) (l + dl) (v + dv) - vec3 zw lw vw‖ ≤
      q.errFactor alpha sigma * ((1 / r0 + 1) * ((1 + q.sizeA + sigma) * ‖vec3 z l v - vec3 zw lw vw‖) ^ 2) := by
  have hr0 : (0 : ℝ) < r0 := lt_of_lt_of_le (by norm_num) hr
  set uz := z - zw with huz
  set ul := l - lw with hul
  set uv := v - vw with huv
  have hu : vec3 z l v - vec3 zw lw vw = vec3 uz ul uv := vec3_sub _ _ _ _ _ _
  rw [hu] at hm ⊢
  set mv : Fin nv → ℝ := fun i => √((-(q.A *ᵥ uz) i + sigma * uv i) ^ 2 + uv i ^ 2) with hmv
  have hmove : euclid mv ≤ _ := q.pairs_move hs uz ul uv
  have ea : ∀ i, q.pairA sigma vb z v i - q.pairA sigma vb zw vw i = -(q.A *ᵥ uz) i + sigma * uv i := by
    intro i
    unfold pairA
    rw [huz, mulVec_sub]
    simp only [Pi.sub_apply, huv]; ring
  have eb : ∀ i, v i - vw i = uv i := fun i => rfl
  have hmi : ∀ i, mv i ≤ (1 + q.sizeA + sigma) * ‖vec3 uz ul uv‖ := fun i =>
    (le_abs_self _).trans ((abs_le_euclid mv i).trans hmove)
  have hda : ∀ i, |q.pairA sigma vb z v i - q.pairA sigma vb zw vw i| ≤ mv i := fun i => by
    rw [ea, hmv]; exact Real.abs_le_sqrt (by nlinarith [sq_nonneg (uv i)])
  have hdb : ∀ i, |v i - vw i| ≤ mv i := fun i => by
    rw [eb, hmv]; exact Real.abs_le_sqrt (by nlinarith [sq_nonneg (-(q.A *ᵥ uz) i + sigma * uv i)])
  have hhyp : ∀ i, r0 ≤ hyp (q.pairA sigma vb z v i) (v i) := by
    intro i
    have h1 := hm i
    rcases le_total (q.pairA sigma vb zw vw i) (vw i) with h2 | h2
    · rw [max_eq_right h2] at h1
      refine le_trans ?_ ((le_abs_self _).trans (abs_le_hyp' _ _))
      have := (abs_le.1 ((hdb i).trans (hmi i))).1
      linarith
    · rw [max_eq_left h2] at h1
      refine le_trans ?_ ((le_abs_self _).trans (abs_le_hyp _ _))
      have := (abs_le.1 ((hda i).trans (hmi i))).1
      linarith
  set er : Fin nv → ℝ := fun i => pfb (q.pairA sigma vb z v i) (v i) alpha +
    (pfbGradient alpha (q.pairA sigma vb z v i) (v i)).1 * (q.pairA sigma vb zw vw i - q.pairA sigma vb z v i) +
    (pfbGradient alpha (q.pairA sigma vb z v i) (v i)).2 * (vw i - v i) with her
  have hC : (0 : ℝ) ≤ 1 / r0 + 1 := by positivity
  have herr : euclid er ≤ (1 / r0 + 1) * euclid mv ^ 2 := by
    refine euclid_le_sum hC fun i => ?_
    have := pfb_semismooth ha ha' hr (hhyp i) (hw.margin i) (hw.dual i) (hw.complementary i).symm
    refine this.trans (le_of_eq ?_)
    have e1 : q.pairA sigma vb z v i - (q.b i - (q.A *ᵥ zw) i + sigma * (vw i - vb i)) =
      -(q.A *ᵥ uz) i + sigma * uv i := ea i
    rw [e1, eb, hmv, Real.sq_sqrt (by positivity)]
  have hsys : q.NewtonSystem sigma (fun i => (pfbGradient alpha (q.pairA sigma vb z v i) (v i)).1)
      (fun i => (pfbGradient alpha (q.pairA sigma vb z v i) (v i)).2) 0 0 (-er) (uz + dz) (ul + dl) (uv + dv) := by
    refine ⟨?_, ?_, ?_⟩
    · have h1 := h.grad
      have h2 := hw.stationary
      have e : q.H *ᵥ (uz + dz) + q.Gᵀ *ᵥ (ul + dl) + q.Aᵀ *ᵥ (uv + dv) + sigma • (uz + dz) =
          (q.H *ᵥ dz + q.Gᵀ *ᵥ dl + q.Aᵀ *ᵥ dv + sigma • dz) + (q.lagrangeGrad z l v + sigma • (z - zb)) -
            (q.lagrangeGrad zw lw vw + sigma • (zw - zb)) := by
        unfold lagrangeGrad
        simp only [mulVec_add, huz, hul, huv, mulVec_sub]
        module
      rw [e, h1, h2, neg_add_cancel, sub_zero]
    · have h1 := h.eq
      have h2 := hw.eq
      have e : -(q.G *ᵥ (uz + dz)) + sigma • (ul + dl) = (-(q.G *ᵥ dz) + sigma • dl) +
          (q.h - q.G *ᵥ z + sigma • (l - lb)) - (q.h - q.G *ᵥ zw + sigma • (lw - lb)) := by
        simp only [mulVec_add, huz, hul, mulVec_sub]
        module
      rw [e, h1, h2, neg_add_cancel, sub_zero]
    · intro i
      have h1 := h.compl i
      have h2 := ea i
      have h3 := eb i
      simp only [mulVec_add, Pi.add_apply, Pi.neg_apply, her]
      linear_combination h1 - (pfbGradient alpha (q.pairA sigma vb z v i) (v i)).1 * h2 -
        (pfbGradient alpha (q.pairA sigma vb z v i) (v i)).2 * h3
  have hb := hsys.bound hc ha hs (fun i => (pfbGradient_nonneg ha ha' _ _).1)
    (fun i => (pfbGradient_nonneg ha ha' _ _).2) (fun i => pfbGradient_sum ha ha' _ _)
  have e1 : vec3 (z + dz) (l + dl) (v + dv) - vec3 zw lw vw = vec3 (uz + dz) (ul + dl) (uv + dv) := by
    rw [vec3_sub]
    congr 1
    · rw [huz]; abel
    · rw [hul]; abel
    · rw [huv]; abel
  rw [e1]
  refine hb.trans (mul_le_mul_of_nonneg_left ?_ (errFactor_pos q ha hs).le)
  have e0 : ‖vec3 (0 : Fin nz → ℝ) (0 : Fin nl → ℝ) (-er)‖ = euclid er := by rw [vec3_v, euclid_neg]
  rw [e0]
  refine herr.trans (mul_le_mul_of_nonneg_left ?_ hC)
  exact pow_le_pow_left₀ (euclid_nonneg _) hmove 2

/-- After a full Newton step the residual of the subproblem is at most proportional to the distance from its
solution. -/
theorem NewtonDir.full {alpha sigma : ℝ} (ha : 0 < alpha) (ha' : alpha < 1) (hs : 0 < sigma)
    {zb lb vb z l v dz dl dv} (h : q.NewtonDir alpha sigma zb lb vb z l v dz dl dv)
    {zw lw vw} (hw : q.ProxKKT sigma zb lb vb zw lw vw) {B : ℝ} (hB0 : 0 ≤ B)
    (hB : ∀ i, q.pairA sigma vb zw vw i + (1 + q.sizeA + sigma) *
      ‖vec3 (z + dz) (l + dl) (v + dv) - vec3 zw lw vw‖ ≤ B ∧ vw i ≤ B) :
    ‖q.subRes alpha sigma zb lb vb (z + dz) (l + dl) (v + dv)‖ ≤
      (4 + 2 * B) * ((1 + q.sizeA + sigma) * ‖vec3 (z + dz) (l + dl) (v + dv) - vec3 zw lw vw‖) := by
  set z' := z + dz with hz'
  set l' := l + dl with hl'
  set v' := v + dv with hv'
  rw [vec3_sub]
  rw [vec3_sub] at hB
  set uz := z' - zw with huz
  set ul := l' - lw with hul
  set uv := v' - vw with huv
  set mv : Fin nv → ℝ := fun i => √((-(q.A *ᵥ uz) i + sigma * uv i) ^ 2 + uv i ^ 2) with hmv
  have hmove : euclid mv ≤ _ := q.pairs_move hs uz ul uv
  have ea : ∀ i, q.pairA sigma vb z' v' i = q.pairA sigma vb zw vw i + (-(q.A *ᵥ uz) i + sigma * uv i) := by
    intro i
    unfold pairA
    rw [huz, mulVec_sub]
    simp only [Pi.sub_apply, huv]; ring
  have eb : ∀ i, v' i = vw i + uv i := fun i => by simp [huv]
  have hmi : ∀ i, mv i ≤ (1 + q.sizeA + sigma) * ‖vec3 uz ul uv‖ := fun i =>
    (le_abs_self _).trans ((abs_le_euclid mv i).trans hmove)
  have hda : ∀ i, |-(q.A *ᵥ uz) i + sigma * uv i| ≤ mv i := fun i => by
    rw [hmv]; exact Real.abs_le_sqrt (by nlinarith [sq_nonneg (uv i)])
  have hdb : ∀ i, |uv i| ≤ mv i := fun i => by
    rw [hmv]; exact Real.abs_le_sqrt (by nlinarith [sq_nonneg (-(q.A *ᵥ uz) i + sigma * uv i)])
  have ez : q.lagrangeGrad z' l' v' + sigma • (z' - zb) = 0 := by
    have hg := h.grad
    have e : q.lagrangeGrad z' l' v' + sigma • (z' - zb) =
        (q.lagrangeGrad z l v + sigma • (z - zb)) +
          (q.H *ᵥ dz + q.Gᵀ *ᵥ dl + q.Aᵀ *ᵥ dv + sigma • dz) := by
      unfold lagrangeGrad
      simp only [hz', hl', hv', mulVec_add]
      module
    rw [e, hg]
    module
  have el : q.h - q.G *ᵥ z' + sigma • (l' - lb) = 0 := by
    have hg := h.eq
    have e : q.h - q.G *ᵥ z' + sigma • (l' - lb) =
        (q.h - q.G *ᵥ z + sigma • (l - lb)) + (-(q.G *ᵥ dz) + sigma • dl) := by
      simp only [hz', hl', mulVec_add]
      module
    rw [e, hg]
    module
  unfold subRes
  rw [ez, el, vec3_v]
  refine le_trans (euclid_mono (b := (4 + 2 * B) • mv) fun i => ?_) ?_
  · rw [Pi.smul_apply, smul_eq_mul, abs_mul, abs_of_nonneg (by positivity : 0 ≤ 4 + 2 * B),
      abs_of_nonneg (Real.sqrt_nonneg _)]
    have hk := pfb_lipschitz (alpha := alpha) ha ha' (a := q.pairA sigma vb zw vw i) (b := vw i)
      (p := -(q.A *ᵥ uz) i + sigma * uv i) (r := uv i) (B := B) (dl := mv i)
      (by rw [abs_of_nonneg (hw.dual i)]; exact (hB i).2)
      (by
        refine (abs_add_le _ _).trans ?_
        have hp : 0 ≤ q.pairA sigma vb zw vw i := hw.margin i
        rw [abs_of_nonneg hp]
        have := (hda i).trans (hmi i)
        have := (hB i).1
        linarith)
      (hda i) (hdb i)
    rw [hw.pfb_zero ha ha' i, sub_zero, ← ea, ← eb] at hk
    exact hk
  · rw [euclid_smul, abs_of_nonneg (by positivity)]
    exact mul_le_mul_of_nonneg_left hmove (by positivity)

/-- The solution of the subproblem is as close to a solution of the quadratic program as the centre. -/
theorem ProxKKT.near (hc : q.Convex) {sigma : ℝ} (hs : 0 < sigma) {zb lb vb zw lw vw}
    (hw : q.ProxKKT sigma zb lb vb zw lw vw) {zs ls vs} (hk : q.KKT zs ls vs) :
    ‖vec3 zw lw vw - vec3 zs ls vs‖ ≤ ‖vec3 zb lb vb - vec3 zs ls vs‖ := by
  have hf := hw.fejer hc hs hk
  refine abs_le_of_sq_le_sq' ?_ (norm_nonneg _) |>.2
  rw [vec3_dist2, vec3_dist2]
  have : 0 ≤ dist2 zw lw vw zb lb vb := by
    rw [← vec3_dist2]; exact sq_nonneg _
  linarith

/-- Its complementarity pairs are close to those of the quadratic program. -/
theorem ProxKKT.pairs_near (hc : q.Convex) {sigma : ℝ} (hs : 0 < sigma) {zb lb vb zw lw vw}
    (hw : q.ProxKKT sigma zb lb vb zw lw vw) {zs ls vs} (hk : q.KKT zs ls vs) {rho : ℝ}
    (hr : ‖vec3 zb lb vb - vec3 zs ls vs‖ ≤ rho) (i : Fin nv) :
    |q.pairA sigma vb zw vw i - (q.b i - (q.A *ᵥ zs) i)| ≤ (1 + q.sizeA + 2 * sigma) * rho ∧
      |vw i - vs i| ≤ (1 + q.sizeA + 2 * sigma) * rho := by
  have hA := q.sizeA_nonneg
  have hn := (hw.near hc hs hk).trans hr
  have hr0 : 0 ≤ rho := (norm_nonneg _).trans hr
  rw [vec3_sub] at hn hr
  obtain ⟨d1, -, d3⟩ := euclid_le_vec3 (zw - zs) (lw - ls) (vw - vs)
  obtain ⟨-, -, c3⟩ := euclid_le_vec3 (zb - zs) (lb - ls) (vb - vs)
  have h1 := (abs_le_euclid (q.A *ᵥ (zw - zs)) i).trans ((q.sizeA_mul _).trans
    (mul_le_mul_of_nonneg_left (d1.trans hn) hA))
  have h2 : |vw i - vs i| ≤ rho := (abs_le_euclid (vw - vs) i).trans (d3.trans hn)
  have h3 : |vb i - vs i| ≤ rho := (abs_le_euclid (vb - vs) i).trans (c3.trans hr)
  have hsr := mul_nonneg hs.le hr0
  have hAr := mul_nonneg hA hr0
  refine ⟨?_, h2.trans (by linarith)⟩
  have e : q.pairA sigma vb zw vw i - (q.b i - (q.A *ᵥ zs) i) =
      -(q.A *ᵥ (zw - zs)) i + sigma * ((vw i - vs i) - (vb i - vs i)) := by
    unfold pairA
    rw [mulVec_sub, Pi.sub_apply]; ring
  rw [e]
  refine (abs_add_le _ _).trans ?_
  rw [abs_neg, abs_mul, abs_of_pos hs]
  have h4 := abs_sub (vw i - vs i) (vb i - vs i)
  have := mul_le_mul_of_nonneg_left (h4.trans (add_le_add h2 h3)) hs.le
  linarith

set_option maxHeartbeats 800000 in
/-- Newton's method converges quadratically in every subproblem with centre close to a strictly complementary
solution. -/
theorem KKT.quadratic (hc : q.Convex) {alpha sigma : ℝ} (ha : 0 < alpha) (ha' : alpha < 1) (hs : 0 < sigma)
    {zs ls vs} (hk : q.KKT zs ls vs) {m M delta eps : ℝ} (hm : 1e-13 < m)
    (hsc : q.StrictlyComplementary m M zs vs) (hd : (1 + q.sizeA + 2 * sigma) * delta ≤ (m - 1e-13) / 4)
    (heps : (1 + q.sizeA + sigma) * q.errFactor alpha sigma * eps ≤ (m - 1e-13) / 4)
    (hKe : q.squareFactor alpha sigma m M * eps ≤ 1 / 25)
    {zb lb vb} (hcen : ‖vec3 zb lb vb - vec3 zs ls vs‖ ≤ delta) {z l v dz dl dv}
    (hdir : q.NewtonDir alpha sigma zb lb vb z l v dz dl dv)
    (hres : ‖q.subRes alpha sigma zb lb vb z l v‖ ≤ eps) :
    ‖q.subRes alpha sigma zb lb vb (z + dz) (l + dl) (v + dv)‖ ≤
      q.squareFactor alpha sigma m M * ‖q.subRes alpha sigma zb lb vb z l v‖ ^ 2 := by
  have hA := q.sizeA_nonneg
  have hM0 := hsc.nonneg
  have hm0 : 0 < m := lt_trans (by norm_num) hm
  unfold squareFactor distFactor at *
  set e := q.errFactor alpha sigma with he
  have he0 : 0 < e := errFactor_pos q ha hs
  have he1 : 1 ≤ e := by
    have h1 : 1 ≤ 2 / alpha := by rw [le_div_iff₀ ha]; linarith
    have h2 : 0 ≤ (1 + 2 * (q.sizeA + 1 + sigma) / alpha) / sigma := by positivity
    rw [he]; unfold errFactor; linarith
  set S := 1 + q.sizeA + sigma with hS
  set S2 := 1 + q.sizeA + 2 * sigma with hS2
  have hS0 : 0 < S := by positivity
  have hS1 : 1 ≤ S := by rw [hS]; linarith
  set r0 := (m + 1e-13) / 2 with hr0
  have hr : 1e-13 ≤ r0 := by rw [hr0]; linarith
  have hr0' : 0 < r0 := lt_of_lt_of_le (by norm_num) hr
  set gap := (m - 1e-13) / 2 with hgap
  have hgap0 : 0 < gap := by rw [hgap]; linarith
  have hgm : gap ≤ m := by rw [hgap]; linarith
  have hg4 : (m - 1e-13) / 4 = gap / 2 := by rw [hgap]; ring
  rw [hg4] at hd heps
  set P := e * ((1 / r0 + 1) * (S * e) ^ 2) with hP
  have hP0 : 0 < P := by positivity
  set B := M + m with hB
  have hB0 : 0 ≤ B := by positivity
  set K := (4 + 2 * B) * (S * P) with hK
  have hK0 : 0 < K := by positivity
  set r := ‖q.subRes alpha sigma zb lb vb z l v‖ with hrdef
  have hrn : 0 ≤ r := norm_nonneg _
  have heps0 : 0 ≤ eps := hrn.trans hres
  obtain ⟨zw, lw, vw, hw⟩ := hc.exists_prox hs zb lb vb
  have hpn := hw.pairs_near hc hs hk hcen
  have hx : ‖vec3 z l v - vec3 zw lw vw‖ ≤ e * r := subRes_near_prox hc ha ha' hs hw
  have hSx : S * ‖vec3 z l v - vec3 zw lw vw‖ ≤ S * e * r := by
    have := mul_le_mul_of_nonneg_left hx hS0.le; linarith
  have hq := hdir.quadratic hc ha ha' hs hw hr (fun i => by
    obtain ⟨h1, h2⟩ := hpn i
    have h3 := hsc.margin i
    have h4 : S * e * r ≤ S * e * eps := mul_le_mul_of_nonneg_left hres (by positivity)
    have hmr : r0 + gap = m := by rw [hr0, hgap]; ring
    rcases le_total (q.b i - (q.A *ᵥ zs) i) (vs i) with h | h
    · rw [max_eq_right h] at h3
      refine le_trans ?_ (le_max_right _ _)
      have := (abs_le.1 h2).1
      linarith
    · rw [max_eq_left h] at h3
      refine le_trans ?_ (le_max_left _ _)
      have := (abs_le.1 h1).1
      linarith)
  have hxp : ‖vec3 (z + dz) (l + dl) (v + dv) - vec3 zw lw vw‖ ≤ P * r ^ 2 := by
    refine hq.trans ?_
    have h1 : (S * ‖vec3 z l v - vec3 zw lw vw‖) ^ 2 ≤ (S * e * r) ^ 2 :=
      pow_le_pow_left₀ (by positivity) hSx 2
    have e1 : P * r ^ 2 = e * ((1 / r0 + 1) * (S * e * r) ^ 2) := by rw [hP]; ring
    rw [e1]
    exact mul_le_mul_of_nonneg_left (mul_le_mul_of_nonneg_left h1 (by positivity)) he0.le
  have hxp1 : S * ‖vec3 (z + dz) (l + dl) (v + dv) - vec3 zw lw vw‖ ≤ gap / 2 := by
    have h1 := mul_le_mul_of_nonneg_left hxp hS0.le
    refine h1.trans ?_
    have hSP : 0 < S * P := by positivity
    have h2 : S * P * eps ≤ 1 := by
      have h3 : S * P * eps ≤ K * eps := by
        refine mul_le_mul_of_nonneg_right ?_ heps0
        rw [hK]
        have := mul_le_mul_of_nonneg_right (show 1 ≤ 4 + 2 * B by linarith) hSP.le
        linarith
      linarith
    have h4 : S * P * r ≤ 1 := (mul_le_mul_of_nonneg_left hres hSP.le).trans h2
    have h5 : S * (P * r ^ 2) ≤ 1 * r := by
      have := mul_le_mul_of_nonneg_right h4 hrn
      linarith [show S * (P * r ^ 2) = S * P * r * r by ring]
    have h6 : 1 * eps ≤ S * e * eps :=
      mul_le_mul_of_nonneg_right (one_le_mul_of_one_le_of_one_le hS1 he1) heps0
    linarith
  have hf := hdir.full ha ha' hs hw hB0 (fun i => by
    obtain ⟨h1, h2⟩ := hpn i
    have := (abs_le.1 h1).2
    have := (abs_le.1 h2).2
    obtain ⟨m1, m2⟩ := hsc.bound i
    constructor <;> linarith)
  refine hf.trans ?_
  have := mul_le_mul_of_nonneg_left (mul_le_mul_of_nonneg_left hxp hS0.le) (by positivity : 0 ≤ 4 + 2 * B)
  refine this.trans (le_of_eq ?_)
  rw [hK]; ring

end QP
end Fbstab
