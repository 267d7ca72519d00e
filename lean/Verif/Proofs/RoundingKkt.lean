import Verif.Proofs.RoundingNorm

/-!
# The residual in rounded arithmetic
-/

namespace Fbstab
namespace Rounding
open Matrix
variable {K : Type} [Scalar K] {u eta : ℝ} {F : Rounding K u eta}

/-- What the error analysis needs to know about a `Data` object: its residual maps are computed with at
most `n` roundings per entry. -/
structure Ops (F : Rounding K u eta) {nz nl nv : Nat} (q : QP nz nl nv) (ops : QPOps K nz nl nv) (n : Nat) :
    Prop where
  grad : ∀ z l v, F.FinVec (gradLagrangian ops z l v) → ∃ rz rl rv, F.Reads z rz ∧ F.Reads l rl ∧
    F.Reads v rv ∧ ∀ i, F.Near n (gradLagrangian ops z l v i) (q.lagrangeGrad rz rl rv i)
      (q.gradSize rz rl rv i)
  eq : ∀ z rz, F.Reads z rz → F.FinVec (eqDefect ops z) → ∀ i, F.Near n (eqDefect ops z i)
    (q.h i - (q.G *ᵥ rz) i) (q.eqSize rz i)
  forcing : ∃ S, ops.forcingNorm = Scalar.sqrt S ∧ (F.Fin' S →
    F.Near n S (q.f ⬝ᵥ q.f + q.h ⬝ᵥ q.h + q.b ⬝ᵥ q.b) (q.f ⬝ᵥ q.f + q.h ⬝ᵥ q.h + q.b ⬝ᵥ q.b))

theorem cmin_toReal {x y : K} {a b : ℝ} (hx : F.toReal x = some a) (hy : F.toReal y = some b) :
    F.toReal (cmin x y) = some (min a b) := by
  unfold cmin
  by_cases h : b < a
  · rw [if_pos ((F.lt _ _ _ _ hy hx).2 h), hy, min_eq_right h.le]
  · rw [if_neg (mt (F.lt _ _ _ _ hy hx).1 h), hx, min_eq_left (not_lt.1 h)]

theorem cmax_toReal {x y : K} {a b : ℝ} (hx : F.toReal x = some a) (hy : F.toReal y = some b) :
    F.toReal (cmax x y) = some (max a b) := by
  unfold cmax
  by_cases h : a < b
  · rw [if_pos ((F.lt _ _ _ _ hx hy).2 h), hy, max_eq_right h.le]
  · rw [if_neg (mt (F.lt _ _ _ _ hx hy).1 h), hx, max_eq_left (not_lt.1 h)]

/-- An entry of the complementarity residual bounds the smaller of margin and multiplier, and shows that
the margin is finite. -/
theorem penalized_entry {g : ℝ} (hul : u ≤ g) (hg : g < 1) {al y v : K} {alpha b p : ℝ}
    (hal : F.toReal al = some alpha) (h0 : 0 ≤ alpha) (h1 : alpha ≤ 1) (hv : F.toReal v = some b)
    (h : F.toReal (al * cmin y v + (1 - al) * cmax 0 y * cmax 0 v) = some p) :
    ∃ a, F.toReal y = some a ∧ alpha * |min a b| ≤ (|p| + eta) / (1 - g) ^ 2 := by
  obtain ⟨P, T, hP, hT, hpt⟩ := F.add _ _ _ h
  obtain ⟨_, mn, e1, hmn, hP1, hP2, hP3⟩ := F.mul _ _ _ hP
  rw [hal] at e1; cases e1
  obtain ⟨T1, mv, hT1, hmv, -, hTp, hTn⟩ := F.mul _ _ _ hT
  obtain ⟨al1, my, hal1, hmy, -, hT1p, hT1n⟩ := F.mul _ _ _ hT1
  have hya : ∃ a, F.toReal y = some a := by
    by_cases hvy : v < y
    · by_cases h0y : (0 : K) < y
      · exact ⟨my, by simpa [cmax, h0y] using hmy⟩
      · rcases F.above _ _ _ hv hvy with h | h
        · exact absurd h h0y
        · exact h
    · exact ⟨mn, by simpa [cmin, hvy] using hmn⟩
  obtain ⟨a, ha⟩ := hya
  refine ⟨a, ha, ?_⟩
  have emn := cmin_toReal ha hv
  rw [hmn] at emn; obtain rfl : mn = min a b := by injection emn
  have emy := cmax_toReal F.zero ha
  rw [hmy] at emy; obtain rfl : my = max 0 a := by injection emy
  have emv := cmax_toReal F.zero hv
  rw [hmv] at emv; obtain rfl : mv = max 0 b := by injection emv
  obtain ⟨o, _, ho, e2, hal2⟩ := F.sub _ _ _ hal1
  rw [F.one] at ho; cases ho
  rw [hal] at e2; cases e2
  have hu := F.u_nonneg
  have hη := F.eta_nonneg
  have a1 : 0 ≤ al1 := by
    rw [abs_of_nonneg (by linarith : 0 ≤ 1 - alpha)] at hal2
    nlinarith [(abs_le.1 hal2).1]
  have t1 : 0 ≤ T1 := hT1p (mul_nonneg a1 (le_max_left _ _))
  have t0 : 0 ≤ T := hTp (mul_nonneg t1 (le_max_left _ _))
  have ht : 0 < 1 - g := by linarith
  rw [le_div_iff₀ (by positivity)]
  have key : (1 - g) * (alpha * |min a b|) ≤ |P| + eta := by
    have h2 : alpha * |min a b| = |alpha * min a b| := by rw [abs_mul, abs_of_nonneg h0]
    rw [h2]
    have h3 : |alpha * min a b| ≤ |P| + |P - alpha * min a b| := by
      have := abs_sub P (P - alpha * min a b)
      rwa [sub_sub_cancel] at this
    have h4 : u * |alpha * min a b| ≤ g * |alpha * min a b| :=
      mul_le_mul_of_nonneg_right hul (abs_nonneg _)
    nlinarith
  have key2 : (1 - g) * |P| ≤ |p| := by
    have h3 : |P + T| ≤ |p| + |p - (P + T)| := by
      have := abs_sub p (p - (P + T))
      rwa [sub_sub_cancel] at this
    have h4 : u * |P + T| ≤ g * |P + T| := mul_le_mul_of_nonneg_right hul (abs_nonneg _)
    have h5 : |P| ≤ |P + T| := by
      rcases le_total 0 (min a b) with hm | hm
      · have p0 := hP2 (mul_nonneg h0 hm)
        rw [abs_of_nonneg p0, abs_of_nonneg (by linarith : 0 ≤ P + T)]; linarith
      · have : T = 0 := by
          refine le_antisymm (hTn ?_) t0
          rcases min_le_iff.1 hm with h | h
          · have : T1 = 0 := le_antisymm (hT1n (by rw [max_eq_left h, mul_zero])) t1
            rw [this, zero_mul]
          · rw [max_eq_left h, mul_zero]
        rw [this, add_zero]
    nlinarith [mul_le_mul_of_nonneg_left h5 ht.le]
  have : (1 - g) * ((1 - g) * (alpha * |min a b|)) ≤ (1 - g) * (|P| + eta) :=
    mul_le_mul_of_nonneg_left key ht.le
  have g0 : 0 ≤ g := hu.trans hul
  nlinarith [mul_nonneg g0 hη]

/-- From a residual below a finite tolerance to the KKT conditions of the quadratic program. -/
theorem Ops.kkt {nz nl nv n N : Nat} {q : QP nz nl nv} {ops : QPOps K nz nl nv} (hq : F.Ops q ops n)
    (hn : n ≤ N) {g w : ℝ} (hc : F.Consts N g) (hN : 2 * (nz + nl + nv) + 1 ≤ N)
    (hw : 2 * N * eta ≤ w) {al tol : K} {alpha tau : ℝ} (hal : F.toReal al = some alpha)
    (h0 : 0 ≤ alpha) (h1 : alpha ≤ 1) (ht : F.toReal tol = some tau) (x : Point K nz nl nv)
    (h : residualNorm ops al x ≤ tol) :
    ∃ z l v y, F.Reads x.z z ∧ F.Reads x.l l ∧ F.Reads x.v v ∧ F.Reads x.y y ∧
      q.RoundedKKT alpha tau g w z l v y := by
  obtain ⟨rho, hr⟩ := F.sqrt_finite _ _ _ h ht
  have hle : rho ≤ tau := (F.le _ _ _ _ hr ht).1 h
  obtain ⟨r0, rg, re, rp, hrg, hre, hrp, b1, b2, b3⟩ := norm3_lower hc hN hw hr
  have mono : √(rho ^ 2 + w) / (1 - g) ^ 4 ≤ √(tau ^ 2 + w) / (1 - g) ^ 4 := by
    have : 0 < 1 - g := by linarith [hc.lt]
    gcongr
  obtain ⟨z, l, v, hz, hl, hv, hgr⟩ := hq.grad x.z x.l x.v fun i => ⟨_, hrg i⟩
  have heq := hq.eq x.z z hz fun i => ⟨_, hre i⟩
  have hη := F.eta_nonneg
  have hNr : (n : ℝ) ≤ N := by exact_mod_cast hn
  have hN1 : (1 : ℝ) ≤ N := by exact_mod_cast hc.pos
  have hw' : 2 * n * eta ≤ w := by nlinarith
  have hw0 : 0 ≤ w := le_trans (by positivity) hw
  have hp : ∀ i, ∃ a, F.toReal (x.y i) = some a ∧ alpha * |min a (v i)| ≤ (|rp i| + eta) / (1 - g) ^ 2 := by
    intro i
    have hp := hrp i
    simp only [penalizedMin, Vec.get_ofFn] at hp
    exact penalized_entry hc.u_le hc.lt hal h0 h1 (hv i) hp
  choose y hy hyc using hp
  refine ⟨z, l, v, y, hz, hl, hv, hy, ⟨?_, ?_, ?_⟩⟩
  · have := euclid_near hc.nonneg hw0 (r := rg) (e := q.lagrangeGrad z l v) (m := q.gradSize z l v)
      (fun i => (hc.near hn (hgr i) (hrg i)).trans (by linarith)) (fun i => (hgr i).size_nonneg)
    linarith
  · have := euclid_near hc.nonneg hw0 (r := re) (e := fun i => q.h i - (q.G *ᵥ z) i) (m := q.eqSize z)
      (fun i => (hc.near hn (heq i) (hre i)).trans (by linarith)) (fun i => (heq i).size_nonneg)
    linarith
  · intro i
    refine (hyc i).trans ?_
    have := euclid_abs_entry rp i
    have : 0 < 1 - g := by linarith [hc.lt]
    gcongr
    · linarith
    · nlinarith

/-- Rounding a number below `M`. -/
theorem round_up {c x M e : ℝ} (hu : 0 ≤ u) (hu1 : u ≤ 1) (h : |c - x| ≤ u * |x| + e) (hx : x ≤ M)
    (hM : 0 ≤ M) : c ≤ (1 + u) * M + e := by
  have h1 := (abs_le.1 h).2
  rcases le_or_gt 0 x with h2 | h2
  · rw [abs_of_nonneg h2] at h1
    have : (1 + u) * x ≤ (1 + u) * M := mul_le_mul_of_nonneg_left hx (by linarith)
    linarith
  · rw [abs_of_neg h2] at h1
    have : 0 ≤ (1 + u) * M := by positivity
    have : (1 - u) * x ≤ 0 := mul_nonpos_of_nonneg_of_nonpos (by linarith) h2.le
    linarith

/-- The computed tolerance. -/
theorem Ops.tol {nz nl nv n N : Nat} {q : QP nz nl nv} {ops : QPOps K nz nl nv} (hq : F.Ops q ops n)
    (hn : n + 4 ≤ N) {o : Params K} {at' rt tau w : ℝ} (hw : 2 * N * eta ≤ w) (h2 : (1 + u) ^ N ≤ 2)
    (hat : F.toReal o.absTol = some at')
    (hrt : F.toReal o.relTol = some rt) (h0 : 0 ≤ at') (h0' : 0 ≤ rt)
    (h : F.toReal (stoppingTol ops o) = some tau) :
    tau ≤ (1 + u) ^ N * (at' + rt * (1 + √(q.forcing ^ 2 + w)) + w) := by
  obtain ⟨_, b, e1, hb, hr1⟩ := F.add _ _ _ h
  rw [hat] at e1; cases e1
  obtain ⟨_, c, e2, hcc, hr2, hp2, -⟩ := F.mul _ _ _ hb
  rw [hrt] at e2; cases e2
  obtain ⟨_, phi, e3, hphi, hr3⟩ := F.add _ _ _ hcc
  rw [F.one] at e3; cases e3
  obtain ⟨S, eS, hS⟩ := hq.forcing
  rw [eS] at hphi
  obtain ⟨s, hs, s0, hr4⟩ := F.sqrt _ _ hphi
  have hu := F.u_nonneg
  have hη := F.eta_nonneg
  have u1 : u ≤ 1 := by
    have : (1 + u) ^ 1 ≤ (1 + u) ^ N := F.pow_mono' (by omega)
    rw [pow_one] at this; linarith
  obtain ⟨s', e5, hr5, -⟩ := hS ⟨s, hs⟩
  rw [hs] at e5; cases e5
  generalize hQ : q.f ⬝ᵥ q.f + q.h ⬝ᵥ q.h + q.b ⬝ᵥ q.b = Q at hr5
  have Q0 : 0 ≤ Q := by
    have d : ∀ {k : Nat} (r : Fin k → ℝ), 0 ≤ r ⬝ᵥ r := fun r =>
      Finset.sum_nonneg fun i _ => mul_self_nonneg _
    rw [← hQ]
    exact add_nonneg (add_nonneg (d _) (d _)) (d _)
  have hF : q.forcing ^ 2 = Q := by rw [QP.forcing, hQ, Real.sq_sqrt Q0]
  rw [hF]
  have P1 : 1 ≤ (1 + u) ^ n := F.one_le_pow' n
  have hPN : (1 + u) ^ 4 * (1 + u) ^ n ≤ (1 + u) ^ N := by
    rw [← pow_add]; exact F.pow_mono' (by omega)
  generalize (1 + u) ^ n = P at *
  generalize (1 + u) ^ N = T at *
  have hnN : (n : ℝ) + 4 ≤ N := by exact_mod_cast hn
  have hn0 : (0 : ℝ) ≤ n := Nat.cast_nonneg n
  have hnw : n * eta ≤ w := le_trans (mul_le_mul_of_nonneg_right (by linarith) hη) hw
  have hηw : eta ≤ w := le_trans (by linarith [mul_le_mul_of_nonneg_right (by linarith : (1 : ℝ) ≤ 2 * N) hη]) hw
  have hw0 : 0 ≤ w := hη.trans hηw
  have hs' : s ≤ P ^ 2 * (Q + w) := by
    have h5 := (abs_le.1 hr5).2
    have h6 : P * (n * eta) ≤ P * w := mul_le_mul_of_nonneg_left hnw (by linarith)
    have h7 : P * (Q + w) ≤ P * (P * (Q + w)) :=
      mul_le_mul_of_nonneg_left (le_mul_of_one_le_left (by linarith) P1) (by linarith)
    linarith
  have hsq : √s ≤ P * √(Q + w) := by
    rw [← Real.sqrt_sq (by linarith : 0 ≤ P), ← Real.sqrt_mul (by positivity)]
    exact Real.sqrt_le_sqrt hs'
  have f0 : 0 ≤ √(Q + w) := Real.sqrt_nonneg _
  generalize √(Q + w) = f at *
  have k4 : phi ≤ (1 + u) * (P * f) := by
    have h4 := (abs_le.1 hr4).2
    have : (1 + u) * √s ≤ (1 + u) * (P * f) := mul_le_mul_of_nonneg_left hsq (by linarith)
    linarith
  have a1 : 1 ≤ (1 + u) * P := one_le_mul_of_one_le_of_one_le (by linarith) P1
  have k3 : c ≤ (1 + u) * ((1 + u) * (P * (1 + f))) + 0 :=
    round_up hu u1 (by rw [add_zero]; exact hr3) (by linarith) (by positivity)
  have k2 : b ≤ (1 + u) * (rt * ((1 + u) * ((1 + u) * (P * (1 + f))))) + eta :=
    round_up hu u1 hr2 (mul_le_mul_of_nonneg_left (by linarith) h0') (by positivity)
  have a3 : 1 ≤ (1 + u) ^ 3 * P := one_le_mul_of_one_le_of_one_le (one_le_pow₀ (by linarith)) P1
  have M0 : 0 ≤ at' + rt * (1 + f) := by positivity
  have k1 : tau ≤ (1 + u) * ((1 + u) ^ 3 * P * (at' + rt * (1 + f) + w)) + 0 := by
    refine round_up hu u1 (by rw [add_zero]; exact hr1) ?_ (by positivity)
    have h6 : at' ≤ (1 + u) ^ 3 * P * at' := le_mul_of_one_le_left h0 a3
    have h7 : w ≤ (1 + u) ^ 3 * P * w := le_mul_of_one_le_left hw0 a3
    calc at' + b ≤ at' + ((1 + u) ^ 3 * P * (rt * (1 + f)) + eta) := by
          rw [show (1 + u) ^ 3 * P * (rt * (1 + f)) =
            (1 + u) * (rt * ((1 + u) * ((1 + u) * (P * (1 + f))))) by ring]
          linarith
      _ ≤ _ := by rw [show (1 + u) ^ 3 * P * (at' + rt * (1 + f) + w) = (1 + u) ^ 3 * P * at' +
            (1 + u) ^ 3 * P * (rt * (1 + f)) + (1 + u) ^ 3 * P * w by ring]; linarith
  calc tau ≤ (1 + u) ^ 4 * P * (at' + rt * (1 + f) + w) := by
        rw [show (1 + u) ^ 4 * P * (at' + rt * (1 + f) + w) =
          (1 + u) * ((1 + u) ^ 3 * P * (at' + rt * (1 + f) + w)) + 0 by ring]
        exact k1
    _ ≤ _ := mul_le_mul_of_nonneg_right hPN (by linarith)

/-! ### Dense data -/

theorem denseOps {nz nl nv : Nat} (hz : 0 < nz) {d : DenseData K nz nl nv} {q : QP nz nl nv}
    (h : F.ReadsDense d q) : F.Ops q d.ops (2 * (nz + nl + nv) + 4) where
  grad z l v hf := by
    have e : ∀ i, gradLagrangian d.ops z l v i =
        (((1 : K) * d.A.transpose) * v) i + 1 * ((((1 : K) * d.G.transpose) * l) i +
          1 * ((((1 : K) * d.H) * z) i + 1 * (0 + 1 * d.f i))) := by
      intro i
      simp only [gradLagrangian, DenseData.ops, DenseData.gemvAT, DenseData.gemvGT, DenseData.gemvH,
        DenseData.axpyf, Vec.get_add, Vec.get_smul, Vec.get_const]
    have hf' : ∀ i, F.Fin' ((((1 : K) * d.A.transpose) * v) i) ∧
        F.Fin' ((((1 : K) * d.G.transpose) * l) i) ∧ F.Fin' ((((1 : K) * d.H) * z) i) ∧
        F.Fin' (0 + 1 * d.f i) ∧ F.Fin' ((((1 : K) * d.H) * z) i + 1 * (0 + 1 * d.f i)) ∧
        F.Fin' ((((1 : K) * d.G.transpose) * l) i +
          1 * ((((1 : K) * d.H) * z) i + 1 * (0 + 1 * d.f i))) := by
      intro i
      have h0 := hf i
      rw [e] at h0
      obtain ⟨h1, h2⟩ := fin_add h0
      have h2 := (fin_mul h2).2
      obtain ⟨h3, h4⟩ := fin_add h2
      have h4 := (fin_mul h4).2
      obtain ⟨h5, h6⟩ := fin_add h4
      exact ⟨h1, h3, h5, (fin_mul h6).2, h4, h2⟩
    obtain ⟨rz, hrz⟩ := (fin_mulVec (hf' ⟨0, hz⟩).2.2.1).reads
    obtain ⟨rl, hrl⟩ := (fin_mulVec (hf' ⟨0, hz⟩).2.1).reads
    obtain ⟨rv, hrv⟩ := (fin_mulVec (hf' ⟨0, hz⟩).1).reads
    refine ⟨rz, rl, rv, hrz, hrl, hrv, fun i => ?_⟩
    obtain ⟨h1, h3, h5, h6, h4, h2⟩ := hf' i
    have n0 : F.Near 1 (0 + 1 * d.f i) (0 + q.f i) (|0| + |q.f i|) :=
      (near_exact F.zero).add (near_exact (h.f i)).one_mul (by omega) h6
    have nH := near_mulVec (F := F) (M := (1 : K) * d.H) (a := fun j => q.H i j)
      (fun j => by rw [Mat.get_smul, F.one_mul _ _ F.one]; exact h.H i j) hrz h5
    have nG := near_mulVec (F := F) (M := (1 : K) * d.G.transpose) (a := fun j => q.G j i)
      (fun j => by rw [Mat.get_smul, Mat.get_transpose, F.one_mul _ _ F.one]; exact h.G j i) hrl h3
    have nA := near_mulVec (F := F) (M := (1 : K) * d.A.transpose) (a := fun j => q.A j i)
      (fun j => by rw [Mat.get_smul, Mat.get_transpose, F.one_mul _ _ F.one]; exact h.A j i) hrv h1
    have n1 := nH.add n0.one_mul (N := 2 * nz + 2) (by omega) h4
    have n2 := nG.add n1.one_mul (N := 2 * nz + 2 * nl + 3) (by omega) h2
    have n3 := nA.add n2.one_mul (N := 2 * (nz + nl + nv) + 4) (by omega) (by rw [← e]; exact hf i)
    rw [e]
    refine n3.congr ?_ ?_
    · simp only [QP.lagrangeGrad, Pi.add_apply, mulVec, dotProduct, transpose_apply]; ring
    · simp only [QP.gradSize, abs_zero]; ring
  eq z rz hz' hf i := by
    have e : eqDefect d.ops z i = (((-1 : K) * d.G) * z) i + 1 * (0 + 1 * d.h i) := by
      simp only [eqDefect, DenseData.ops, DenseData.gemvG, DenseData.axpyh, Vec.get_add, Vec.get_smul,
        Vec.get_const]
    have h0 := hf i
    rw [e] at h0 ⊢
    obtain ⟨h1, h2⟩ := fin_add h0
    have n0 : F.Near 1 (0 + 1 * d.h i) (0 + q.h i) (|0| + |q.h i|) :=
      (near_exact F.zero).add (near_exact (h.h i)).one_mul (by omega) (fin_mul h2).2
    have nG := near_mulVec (F := F) (M := (-1 : K) * d.G) (a := fun j => -q.G i j)
      (fun j => by rw [Mat.get_smul, F.neg_one_mul _ _ F.neg_one, h.G i j]; rfl) hz' h1
    have n1 := nG.add n0.one_mul (N := 2 * (nz + nl + nv) + 4) (by omega) h0
    refine n1.congr ?_ ?_
    · simp only [mulVec, dotProduct, neg_mul, Finset.sum_neg_distrib]; ring
    · simp only [QP.eqSize, abs_zero, abs_neg]; ring
  forcing := by
    refine ⟨_, rfl, fun hS => ?_⟩
    obtain ⟨h1, h2⟩ := fin_add hS
    obtain ⟨h3, h4⟩ := fin_add h1
    have := ((near_squaredNorm h.b h3).add (near_squaredNorm h.f h4) (N := 2 * nv + 2 * nz + 1) le_rfl h1).add
      (near_squaredNorm h.h h2) (N := 2 * (nz + nl + nv) + 4) (by omega) hS
    have e : (∑ i, q.b i * q.b i) + (∑ i, q.f i * q.f i) + (∑ i, q.h i * q.h i) =
        q.f ⬝ᵥ q.f + q.h ⬝ᵥ q.h + q.b ⬝ᵥ q.b := by simp only [dotProduct]; ring
    rw [e] at this
    exact this

end Rounding
end Fbstab
