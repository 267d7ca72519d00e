import Verif.Proofs.Shift
import Verif.Proofs.ProxExists
import Mathlib.Order.Filter.Ultrafilter.Basic
import Mathlib.Analysis.InnerProductSpace.Projection.FiniteDimensional

/-!
# Every convex problem has a smallest shift that makes it solvable

Proximal steps from the origin with sigma tending to zero: along an ultrafilter the set of active
inequalities is constant, so the steps solve a fixed linear system with a vanishing multiple of the
identity added.
-/

namespace Fbstab
open Matrix Filter Topology

/-! ## A monotone linear map -/

section
variable {V : Type*} [NormedAddCommGroup V] [InnerProductSpace ℝ V] [FiniteDimensional ℝ V]

theorem monotone_decompose (M : V →ₗ[ℝ] V) (hM : ∀ x, 0 ≤ inner ℝ x (M x)) (c : V) :
    ∃ c0 w, M c0 = 0 ∧ c = c0 + M w := by
  obtain ⟨y, hy, z, hz, e⟩ := Submodule.exists_add_mem_mem_orthogonal (K := LinearMap.range M) c
  obtain ⟨w, rfl⟩ := hy
  refine ⟨z, w, ?_, by rw [e, add_comm]⟩
  have horth : ∀ x, inner ℝ z (M x) = 0 := fun x => by
    rw [real_inner_comm]
    exact (Submodule.mem_orthogonal _ _).1 hz _ ⟨x, rfl⟩
  have hlin : ∀ x, inner ℝ x (M z) = 0 := by
    intro x
    have h1 : ∀ t : ℝ, 0 ≤ inner ℝ x (M x) + t * inner ℝ x (M z) := by
      intro t
      have := hM (x + t • z)
      rw [map_add, map_smul, inner_add_left, inner_add_right, inner_add_right, inner_smul_right,
        inner_smul_right, inner_smul_left, inner_smul_left, horth, horth] at this
      simpa using this
    by_contra hne
    have h2 := h1 (-(inner ℝ x (M x) + 1) / inner ℝ x (M z))
    rw [div_mul_cancel₀ _ hne] at h2
    linarith
  exact inner_self_eq_zero.1 (hlin (M z))

theorem monotone_bounded (M : V →ₗ[ℝ] V) (hM : ∀ x, 0 ≤ inner ℝ x (M x)) {c c0 w y : V} {e : ℝ}
    (he : 0 < e) (h0 : M c0 = 0) (hc : c = c0 + M w) (hy : M y + e • y = c) :
    ‖y - e⁻¹ • c0‖ ≤ ‖w‖ ∧ M (y - e⁻¹ • c0) = c - c0 - e • (y - e⁻¹ • c0) := by
  have h1 : M (y - e⁻¹ • c0) = c - c0 - e • (y - e⁻¹ • c0) := by
    rw [map_sub, map_smul, h0, smul_zero, sub_zero, smul_sub, smul_smul, mul_inv_cancel₀ he.ne',
      one_smul, ← hy]
    abel
  refine ⟨?_, h1⟩
  set x := y - e⁻¹ • c0 with hx
  have h2 : M (x - w) = -(e • x) := by
    rw [map_sub, h1, hc]
    abel
  have h3 := hM (x - w)
  rw [h2, inner_neg_right, inner_smul_right, inner_sub_left, real_inner_self_eq_norm_sq] at h3
  have h4 : ‖x‖ ^ 2 ≤ inner ℝ w x := by
    by_contra hlt
    have := mul_pos he (sub_pos.2 (not_le.1 hlt))
    linarith
  have h5 := real_inner_le_norm w x
  by_contra hlt
  have h6 := norm_nonneg w
  have h7 := not_le.1 hlt
  nlinarith

end

/-- Quantities that stay nonnegative as the regularisation vanishes. -/
theorem vanish_nonneg {U : Filter ℕ} [U.NeBot] {e b : ℕ → ℝ} {a b' : ℝ} (he : ∀ n, 0 < e n)
    (he0 : Tendsto e U (𝓝 0)) (hb : Tendsto b U (𝓝 b')) (h : ∀ᶠ n in U, 0 ≤ (e n)⁻¹ * a + b n) :
    0 ≤ a ∧ ∀ᶠ t in atTop, 0 ≤ b' + t * a := by
  have h1 : ∀ᶠ n in U, 0 ≤ a + e n * b n := by
    filter_upwards [h] with n hn
    have := mul_nonneg (he n).le hn
    rwa [mul_add, ← mul_assoc, mul_inv_cancel₀ (he n).ne', one_mul] at this
  have h2 : Tendsto (fun n => a + e n * b n) U (𝓝 a) := by
    have := (he0.mul hb).const_add a
    rwa [zero_mul, add_zero] at this
  have ha : 0 ≤ a := ge_of_tendsto h2 h1
  refine ⟨ha, ?_⟩
  rcases eq_or_lt_of_le ha with h0 | h0
  · have h3 : 0 ≤ b' := ge_of_tendsto hb (by
      filter_upwards [h] with n hn
      rwa [← h0, mul_zero, zero_add] at hn)
    exact Eventually.of_forall fun t => by rw [← h0, mul_zero, add_zero]; exact h3
  · filter_upwards [eventually_ge_atTop (|b'| / a)] with t ht
    rw [div_le_iff₀ h0] at ht
    have := neg_abs_le b'
    linarith

namespace QP
variable {nz nl nv : Nat} {q : QP nz nl nv}

open Classical in
/-- The entries in `S`. -/
noncomputable def maskOn (S : Set (Fin nv)) (v : Fin nv → ℝ) : Fin nv → ℝ := fun i => if i ∈ S then v i else 0

theorem maskOn_add (S : Set (Fin nv)) (v w : Fin nv → ℝ) : maskOn S (v + w) = maskOn S v + maskOn S w := by
  ext i; simp only [maskOn, Pi.add_apply]; split <;> simp

theorem maskOn_smul (S : Set (Fin nv)) (t : ℝ) (v : Fin nv → ℝ) : maskOn S (t • v) = t • maskOn S v := by
  ext i; simp only [maskOn, Pi.smul_apply, smul_eq_mul]; split <;> simp

theorem maskOn_dot (S : Set (Fin nv)) (v w : Fin nv → ℝ) : maskOn S v ⬝ᵥ w = v ⬝ᵥ maskOn S w := by
  unfold dotProduct maskOn
  refine Finset.sum_congr rfl fun i _ => ?_
  split <;> simp

abbrev Space (nz nl nv : Nat) := EuclideanSpace ℝ (Fin nz ⊕ Fin nl ⊕ Fin nv)

/-- The parts of a vector. -/
def partZ (x : Space nz nl nv) : Fin nz → ℝ := fun i => x (.inl i)
def partL (x : Space nz nl nv) : Fin nl → ℝ := fun i => x (.inr (.inl i))
def partV (x : Space nz nl nv) : Fin nv → ℝ := fun i => x (.inr (.inr i))

theorem parts_vec3 (x : Space nz nl nv) : vec3 (partZ x) (partL x) (partV x) = x := by
  ext i
  rcases i with i | i | i <;> simp [vec3, partZ, partL, partV]

@[simp] theorem partZ_vec3 (z : Fin nz → ℝ) (l : Fin nl → ℝ) (v : Fin nv → ℝ) : partZ (vec3 z l v) = z := rfl
@[simp] theorem partL_vec3 (z : Fin nz → ℝ) (l : Fin nl → ℝ) (v : Fin nv → ℝ) : partL (vec3 z l v) = l := rfl
@[simp] theorem partV_vec3 (z : Fin nz → ℝ) (l : Fin nl → ℝ) (v : Fin nv → ℝ) : partV (vec3 z l v) = v := rfl
theorem partZ_add (x y : Space nz nl nv) : partZ (x + y) = partZ x + partZ y := rfl
theorem partL_add (x y : Space nz nl nv) : partL (x + y) = partL x + partL y := rfl
theorem partV_add (x y : Space nz nl nv) : partV (x + y) = partV x + partV y := rfl
theorem partZ_smul (t : ℝ) (x : Space nz nl nv) : partZ (t • x) = t • partZ x := rfl
theorem partL_smul (t : ℝ) (x : Space nz nl nv) : partL (t • x) = t • partL x := rfl
theorem partV_smul (t : ℝ) (x : Space nz nl nv) : partV (t • x) = t • partV x := rfl

/-- The KKT system with the inequalities in `S` active. -/
noncomputable def system (q : QP nz nl nv) (S : Set (Fin nv)) : Space nz nl nv →ₗ[ℝ] Space nz nl nv where
  toFun x := vec3 (q.H *ᵥ partZ x + q.Gᵀ *ᵥ partL x + q.Aᵀ *ᵥ maskOn S (partV x)) (-(q.G *ᵥ partZ x))
    (-maskOn S (q.A *ᵥ partZ x))
  map_add' x y := by
    rw [vec3_add, partZ_add, partL_add, partV_add, maskOn_add, mulVec_add, mulVec_add, mulVec_add,
      mulVec_add, mulVec_add, maskOn_add]
    congr 1 <;> abel
  map_smul' t x := by
    rw [RingHom.id_apply, vec3_smul, partZ_smul, partL_smul, partV_smul, maskOn_smul, mulVec_smul,
      mulVec_smul, mulVec_smul, mulVec_smul, mulVec_smul, maskOn_smul, smul_neg, smul_neg, smul_add,
      smul_add]

theorem system_apply (S : Set (Fin nv)) (x : Space nz nl nv) : q.system S x =
    vec3 (q.H *ᵥ partZ x + q.Gᵀ *ᵥ partL x + q.Aᵀ *ᵥ maskOn S (partV x)) (-(q.G *ᵥ partZ x))
    (-maskOn S (q.A *ᵥ partZ x)) := rfl

theorem Convex.system_monotone (hc : q.Convex) (S : Set (Fin nv)) (x : Space nz nl nv) :
    0 ≤ inner ℝ x (q.system S x) := by
  have h : inner ℝ x (q.system S x) = partZ x ⬝ᵥ q.H *ᵥ partZ x := by
    conv_lhs => rw [← parts_vec3 x]
    rw [parts_vec3, system_apply]
    conv_lhs => rw [← parts_vec3 x]
    rw [vec3_inner, partZ_vec3, partL_vec3, partV_vec3, dotProduct_add, dotProduct_add,
      dotProduct_comm (partZ x) (q.Gᵀ *ᵥ _), dotProduct_comm (partZ x) (q.Aᵀ *ᵥ _), transpose_dot,
      transpose_dot, dotProduct_neg, dotProduct_neg, maskOn_dot]
    ring
  rw [h]
  exact hc.nonneg _

theorem Convex.flat_of_zero (hc : q.Convex) {z : Fin nz → ℝ} (h : z ⬝ᵥ q.H *ᵥ z = 0) : q.H *ᵥ z = 0 := by
  have h1 : ∀ t : ℝ, 0 ≤ 2 * t * ((q.H *ᵥ z) ⬝ᵥ (q.H *ᵥ z)) +
      t ^ 2 * ((q.H *ᵥ z) ⬝ᵥ q.H *ᵥ (q.H *ᵥ z)) := by
    intro t
    have := hc.nonneg (z + t • q.H *ᵥ z)
    have e : z ⬝ᵥ q.H *ᵥ (q.H *ᵥ z) = (q.H *ᵥ z) ⬝ᵥ (q.H *ᵥ z) := by
      conv_rhs => enter [1]; rw [← hc.symm.eq]
      rw [transpose_dot]
    simp only [mulVec_add, mulVec_smul, add_dotProduct, dotProduct_add, dotProduct_smul,
      smul_dotProduct, smul_eq_mul] at this
    rw [h, e] at this
    linarith
  rw [← dot_self_eq_zero]
  by_contra hne
  have hpos := lt_of_le_of_ne (dot_self_nonneg (q.H *ᵥ z)) (Ne.symm hne)
  set n := (q.H *ᵥ z) ⬝ᵥ (q.H *ᵥ z)
  set C := (q.H *ᵥ z) ⬝ᵥ q.H *ᵥ (q.H *ᵥ z)
  have hC := hc.nonneg (q.H *ᵥ z)
  have h2 := h1 (-(n / (C + 1)))
  have hC1 : 0 < C + 1 := by linarith
  have h3 : (n / (C + 1)) ^ 2 * C ≤ n / (C + 1) * n := by
    have : n / (C + 1) * C ≤ n := by
      rw [div_mul_eq_mul_div, div_le_iff₀ hC1]
      nlinarith
    rw [sq, mul_assoc]
    exact mul_le_mul_of_nonneg_left this (by positivity)
  have h4 : 0 < n / (C + 1) * n := by positivity
  nlinarith

/-- Every convex problem has a smallest shift, and the shifted problem a KKT point. -/
theorem Convex.exists_shift (hc : q.Convex) : ∃ sz sl sv, q.LeastShift sz sl sv ∧
    ∃ z l v, (q.shifted sz sl sv).KKT z l v := by
  set e : ℕ → ℝ := fun n => 1 / ((n : ℝ) + 1) with he
  have hepos : ∀ n, 0 < e n := fun n => by simp only [he]; positivity
  choose zn ln vn hn using fun n => hc.exists_prox (hepos n) (0 : Fin nz → ℝ) (0 : Fin nl → ℝ) (0 : Fin nv → ℝ)
  set U := hyperfilter ℕ with hU
  have hUtop : (U : Filter ℕ) ≤ atTop := by
    rw [← Nat.cofinite_eq_atTop]; exact hyperfilter_le_cofinite
  have he0 : Tendsto e U (𝓝 0) := (tendsto_one_div_add_atTop_nhds_zero_nat (𝕜 := ℝ)).mono_left hUtop
  obtain ⟨S, hS⟩ := (U.map fun n => {i | vn n i ≠ 0}).eq_pure_of_finite
  have hSn : ∀ᶠ n in (U : Filter ℕ), {i | vn n i ≠ 0} = S := by
    have h1 : ({S} : Set (Set (Fin nv))) ∈ U.map fun n => {i | vn n i ≠ 0} := by
      rw [hS]; exact Ultrafilter.mem_pure.2 rfl
    filter_upwards [h1] with n h
    exact h
  set c : Space nz nl nv := vec3 (-q.f) (-q.h) (maskOn S (-q.b)) with hcdef
  obtain ⟨c0, w, h0, hcw⟩ := monotone_decompose (q.system S) (hc.system_monotone S) c
  set y : ℕ → Space nz nl nv := fun n => vec3 (zn n) (ln n) (vn n) with hy
  have hsys : ∀ n, {i | vn n i ≠ 0} = S → q.system S (y n) + e n • y n = c := by
    intro n hn'
    have hv : maskOn S (vn n) = vn n := by
      ext i
      simp only [maskOn]
      split
      · rfl
      · rename_i h
        by_contra hne
        exact h (hn' ▸ fun h' => hne h'.symm)
    rw [system_apply, hy]
    simp only [partZ_vec3, partL_vec3, partV_vec3]
    rw [vec3_smul, vec3_add, hcdef, hv]
    congr 1
    · have := (hn n).stationary
      rw [sub_zero, lagrangeGrad] at this
      rw [← sub_eq_zero, ← this]
      abel
    · have := (hn n).eq
      rw [sub_zero] at this
      rw [← sub_eq_zero, ← this]
      abel
    · funext i
      simp only [Pi.add_apply, Pi.neg_apply, Pi.smul_apply, smul_eq_mul, maskOn]
      split
      · rename_i h
        rw [← hn'] at h
        have := ((hn n).complementary i).resolve_left h
        simp only [Pi.zero_apply, sub_zero] at this
        linarith
      · rename_i h
        have h2 : vn n i = 0 := by
          by_contra hne
          exact h (hn' ▸ hne)
        rw [h2]; ring
  set x : ℕ → Space nz nl nv := fun n => y n - (e n)⁻¹ • c0 with hx
  have hball : ∀ᶠ n in (U : Filter ℕ), x n ∈ Metric.closedBall (0 : Space nz nl nv) ‖w‖ := by
    filter_upwards [hSn] with n hn'
    rw [mem_closedBall_zero_iff]
    exact (monotone_bounded _ (hc.system_monotone S) (hepos n) h0 hcw (hsys n hn')).1
  obtain ⟨xs, -, hxs⟩ := (isCompact_closedBall (0 : Space nz nl nv) ‖w‖).ultrafilter_le_nhds (U.map x)
    (le_principal_iff.2 hball)
  have hlim : Tendsto x U (𝓝 xs) := hxs
  have hMx : q.system S xs = c - c0 := by
    have h1 : Tendsto (fun n => q.system S (x n)) U (𝓝 (q.system S xs)) :=
      ((q.system S).continuous_of_finiteDimensional.tendsto xs).comp hlim
    have h2 : Tendsto (fun n => c - c0 - e n • x n) U (𝓝 (c - c0)) := by
      have := (he0.smul hlim).const_sub (c - c0)
      rwa [zero_smul, sub_zero] at this
    refine tendsto_nhds_unique h1 (h2.congr' ?_)
    filter_upwards [hSn] with n hn'
    exact (monotone_bounded _ (hc.system_monotone S) (hepos n) h0 hcw (hsys n hn')).2.symm
  -- the parts
  set sz := partZ c0 with hsz
  set sl := partL c0 with hsl
  set sv := partV c0 with hsv
  set wz := partZ xs with hwz
  set wl := partL xs with hwl
  set wv := partV xs with hwv
  have hzn : ∀ n, zn n = (e n)⁻¹ • sz + partZ (x n) := by
    intro n
    have : partZ (y n) = partZ ((e n)⁻¹ • c0 + x n) := by
      rw [hx]; congr 1; exact (add_sub_cancel _ _).symm
    rwa [partZ_add, partZ_smul] at this
  have hvn : ∀ n, vn n = (e n)⁻¹ • sv + partV (x n) := by
    intro n
    have : partV (y n) = partV ((e n)⁻¹ • c0 + x n) := by
      rw [hx]; congr 1; exact (add_sub_cancel _ _).symm
    rwa [partV_add, partV_smul] at this
  have hcontV : ∀ i, Tendsto (fun n => partV (x n) i) U (𝓝 (wv i)) := fun i =>
    ((EuclideanSpace.proj (𝕜 := ℝ) (Sum.inr (Sum.inr i) : Fin nz ⊕ Fin nl ⊕ Fin nv)).continuous.tendsto xs).comp hlim
  have hcontZ : ∀ i, Tendsto (fun n => partZ (x n) i) U (𝓝 (wz i)) := fun i =>
    ((EuclideanSpace.proj (𝕜 := ℝ) (Sum.inl i : Fin nz ⊕ Fin nl ⊕ Fin nv)).continuous.tendsto xs).comp hlim
  have hcontA : ∀ i, Tendsto (fun n => (q.A *ᵥ partZ (x n)) i) U (𝓝 ((q.A *ᵥ wz) i)) := by
    intro i
    have : Tendsto (fun n => partZ (x n)) U (𝓝 wz) := tendsto_pi_nhds.2 hcontZ
    exact (((Continuous.matrix_mulVec continuous_const continuous_id :
      Continuous fun z : Fin nz → ℝ => q.A *ᵥ z).tendsto wz).comp this).apply_nhds i
  -- the equations for the shift
  have k1 : q.H *ᵥ sz + q.Gᵀ *ᵥ sl + q.Aᵀ *ᵥ maskOn S sv = 0 := congrArg partZ h0
  have k2 : q.G *ᵥ sz = 0 := neg_eq_zero.1 (congrArg partL h0)
  have k3 : maskOn S (q.A *ᵥ sz) = 0 := neg_eq_zero.1 (congrArg partV h0)
  have k4 : q.H *ᵥ wz + q.Gᵀ *ᵥ wl + q.Aᵀ *ᵥ maskOn S wv = -q.f - sz := congrArg partZ hMx
  have k5 : -(q.G *ᵥ wz) = -q.h - sl := congrArg partL hMx
  have k6 : -maskOn S (q.A *ᵥ wz) = maskOn S (-q.b) - sv := congrArg partV hMx
  have hsvS : ∀ i, i ∉ S → sv i = 0 := by
    intro i hi
    have := congrFun k6 i
    simp only [Pi.neg_apply, Pi.sub_apply, maskOn, if_neg hi] at this
    linarith
  have hmsv : maskOn S sv = sv := by
    ext i
    simp only [maskOn]
    split
    · rfl
    · rw [hsvS i ‹_›]
  have hwvS : ∀ i, i ∉ S → wv i = 0 := by
    intro i hi
    refine tendsto_nhds_unique (hcontV i) (tendsto_const_nhds.congr' ?_)
    filter_upwards [hSn] with n hn'
    have h1 := congrFun (hvn n) i
    have h2 : vn n i = 0 := by
      by_contra hne
      exact hi (hn' ▸ hne)
    rw [h2, Pi.add_apply, Pi.smul_apply, hsvS i hi, smul_zero, zero_add] at h1
    exact h1
  have hmwv : maskOn S wv = wv := by
    ext i
    simp only [maskOn]
    split
    · rfl
    · rw [hwvS i ‹_›]
  rw [hmsv] at k1
  rw [hmwv] at k4
  have hAS : ∀ i, i ∈ S → (q.A *ᵥ sz) i = 0 := by
    intro i hi
    have := congrFun k3 i
    simpa [maskOn, if_pos hi] using this
  have hAwS : ∀ i, i ∈ S → (q.A *ᵥ wz) i = q.b i + sv i := by
    intro i hi
    have := congrFun k6 i
    simp only [Pi.neg_apply, Pi.sub_apply, maskOn, if_pos hi] at this
    linarith
  have hd1 : sv ⬝ᵥ q.A *ᵥ sz = 0 := by
    rw [← hmsv, maskOn_dot, k3, dotProduct_zero]
  have hd2 : wv ⬝ᵥ q.A *ᵥ sz = 0 := by
    rw [← hmwv, maskOn_dot, k3, dotProduct_zero]
  have hflat : q.H *ᵥ sz = 0 := by
    refine hc.flat_of_zero ?_
    have h1 : (q.H *ᵥ sz + q.Gᵀ *ᵥ sl + q.Aᵀ *ᵥ sv) ⬝ᵥ sz = 0 := by rw [k1, zero_dotProduct]
    rw [add_dotProduct, add_dotProduct, transpose_dot, transpose_dot, k2, dotProduct_zero, hd1] at h1
    rw [dotProduct_comm]
    linarith
  have hcancel : q.Gᵀ *ᵥ sl + q.Aᵀ *ᵥ sv = 0 := by rwa [hflat, zero_add] at k1
  -- the signs
  have hsignV : ∀ i, 0 ≤ sv i ∧ ∀ᶠ t in atTop, 0 ≤ wv i + t * sv i := fun i =>
    vanish_nonneg hepos he0 (hcontV i) (Eventually.of_forall fun n => by
      have h1 := congrFun (hvn n) i
      have h2 := (hn n).dual i
      rw [h1] at h2
      exact h2)
  have hsignA : ∀ i, i ∉ S → 0 ≤ -(q.A *ᵥ sz) i ∧
      ∀ᶠ t in atTop, 0 ≤ (q.b i - (q.A *ᵥ wz) i) + t * -(q.A *ᵥ sz) i := fun i hi =>
    vanish_nonneg hepos he0 ((hcontA i).const_sub (q.b i)) (by
      filter_upwards [hSn] with n hn'
      have h1 := (hn n).margin i
      have h2 : vn n i = 0 := by
        by_contra hne
        exact hi (hn' ▸ hne)
      rw [h2, hzn n, mulVec_add, mulVec_smul, Pi.add_apply, Pi.smul_apply, smul_eq_mul, Pi.zero_apply] at h1
      linarith)
  refine ⟨sz, sl, sv, ⟨hflat, k2, fun i => ?_, ?_, hcancel, fun i => (hsignV i).1, ?_⟩, ?_⟩
  · by_cases hi : i ∈ S
    · rw [hAS i hi]
    · linarith [(hsignA i hi).1]
  · have h1 : (q.H *ᵥ wz + q.Gᵀ *ᵥ wl + q.Aᵀ *ᵥ wv) ⬝ᵥ sz = (-q.f - sz) ⬝ᵥ sz := by rw [k4]
    have h2 : (q.H *ᵥ wz) ⬝ᵥ sz = 0 := by
      conv_lhs => rw [← hc.symm.eq]
      rw [transpose_dot, hflat, dotProduct_zero]
    rw [add_dotProduct, add_dotProduct, transpose_dot, transpose_dot, h2, k2, hd2, dotProduct_zero,
      sub_dotProduct, neg_dotProduct] at h1
    linarith
  · have h1 : (q.Gᵀ *ᵥ sl + q.Aᵀ *ᵥ sv) ⬝ᵥ wz = 0 := by rw [hcancel, zero_dotProduct]
    rw [add_dotProduct, transpose_dot, transpose_dot] at h1
    have h2 : q.G *ᵥ wz = q.h + sl := by
      have := congrArg Neg.neg k5
      rw [neg_neg] at this
      rw [this]; abel
    have h3 : sv ⬝ᵥ q.A *ᵥ wz = sv ⬝ᵥ q.b + sv ⬝ᵥ sv := by
      rw [← dotProduct_add]
      refine Finset.sum_congr rfl fun i _ => ?_
      by_cases hi : i ∈ S
      · rw [hAwS i hi]; rfl
      · rw [hsvS i hi, zero_mul, zero_mul]
    rw [h2, h3, dotProduct_add] at h1
    rw [dotProduct_comm q.h, dotProduct_comm q.b]
    linarith
  · have hev : ∀ᶠ t : ℝ in atTop, (∀ i, 0 ≤ wv i + t * sv i) ∧
        ∀ i, i ∉ S → 0 ≤ (q.b i - (q.A *ᵥ wz) i) + t * -(q.A *ᵥ sz) i := by
      refine (eventually_all.2 fun i => (hsignV i).2).and (eventually_all.2 fun i => ?_)
      by_cases hi : i ∈ S
      · exact Eventually.of_forall fun t h => absurd hi h
      · filter_upwards [(hsignA i hi).2] with t ht _ using ht
    obtain ⟨t, ht1, ht2⟩ := hev.exists
    refine ⟨wz + t • sz, wl + t • sl, wv + t • sv, ?_, ⟨?_, fun i => ?_⟩, ht1, fun i => ?_⟩
    · show q.H *ᵥ (wz + t • sz) + (q.f + sz) + q.Gᵀ *ᵥ (wl + t • sl) + q.Aᵀ *ᵥ (wv + t • sv) = 0
      rw [mulVec_add, mulVec_add, mulVec_add, mulVec_smul, mulVec_smul, mulVec_smul, hflat, smul_zero]
      have h1 : t • (q.Gᵀ *ᵥ sl + q.Aᵀ *ᵥ sv) = 0 := by rw [hcancel, smul_zero]
      rw [smul_add] at h1
      calc _ = (q.H *ᵥ wz + q.Gᵀ *ᵥ wl + q.Aᵀ *ᵥ wv) + q.f + sz +
            (t • q.Gᵀ *ᵥ sl + t • q.Aᵀ *ᵥ sv) := by abel
        _ = 0 := by rw [k4, h1]; abel
    · show q.G *ᵥ (wz + t • sz) = q.h + sl
      rw [mulVec_add, mulVec_smul, k2, smul_zero, add_zero]
      have := congrArg Neg.neg k5
      rw [neg_neg] at this
      rw [this]; abel
    · show (q.A *ᵥ (wz + t • sz)) i ≤ q.b i + sv i
      rw [mulVec_add, mulVec_smul, Pi.add_apply, Pi.smul_apply, smul_eq_mul]
      by_cases hi : i ∈ S
      · rw [hAwS i hi, hAS i hi]; linarith
      · have := ht2 i hi
        rw [hsvS i hi]
        linarith
    · show wv i + t * sv i = 0 ∨ (q.A *ᵥ (wz + t • sz)) i = q.b i + sv i
      by_cases hi : i ∈ S
      · right
        rw [mulVec_add, mulVec_smul, Pi.add_apply, Pi.smul_apply, smul_eq_mul, hAwS i hi, hAS i hi]
        ring
      · left
        rw [hwvS i hi, hsvS i hi]; ring

end QP
end Fbstab
