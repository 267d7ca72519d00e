import Verif.Proofs.Rounding

/-!
# Norms and tolerances in rounded arithmetic
-/

namespace Fbstab

theorem euclid_nonneg' {n : Nat} (x : Fin n → ℝ) : 0 ≤ euclid x := Real.sqrt_nonneg _

theorem euclid_sq' {n : Nat} (x : Fin n → ℝ) : euclid x ^ 2 = ∑ i, x i * x i := by
  unfold euclid
  rw [Real.sq_sqrt]
  · rfl
  · exact Finset.sum_nonneg fun i _ => mul_self_nonneg _

/-- Minkowski for the bounds used here. -/
theorem euclid_le_add {n : Nat} {x a b : Fin n → ℝ} (h : ∀ i, |x i| ≤ a i + b i) (ha : ∀ i, 0 ≤ a i)
    (hb : ∀ i, 0 ≤ b i) : euclid x ≤ euclid a + euclid b := by
  have h1 : euclid x ^ 2 ≤ (euclid a + euclid b) ^ 2 := by
    have cs : (∑ i, a i * b i) ^ 2 ≤ (∑ i, a i ^ 2) * ∑ i, b i ^ 2 :=
      Finset.sum_mul_sq_le_sq_mul_sq _ _ _
    have ea := euclid_sq' a
    have eb := euclid_sq' b
    have cs' : (∑ i, a i * b i) ≤ euclid a * euclid b := by
      refine abs_le_of_sq_le_sq' ?_ (mul_nonneg (euclid_nonneg' a) (euclid_nonneg' b)) |>.2
      rw [mul_pow, ea, eb]
      simpa only [sq] using cs
    have : ∑ i, x i * x i ≤ ∑ i, (a i * a i + 2 * (a i * b i) + b i * b i) := by
      refine Finset.sum_le_sum fun i _ => ?_
      have h2 : |x i| * |x i| ≤ (a i + b i) * (a i + b i) :=
        mul_self_le_mul_self (abs_nonneg _) (h i)
      rw [abs_mul_abs_self] at h2
      linarith
    rw [euclid_sq']
    rw [Finset.sum_add_distrib, Finset.sum_add_distrib, ← Finset.mul_sum] at this
    calc _ ≤ _ := this
      _ ≤ _ := by rw [← ea, ← eb]; nlinarith
  exact abs_le_of_sq_le_sq' h1 (add_nonneg (euclid_nonneg' a) (euclid_nonneg' b)) |>.2

theorem euclid_const {n : Nat} {c : ℝ} (h : 0 ≤ c) : euclid (fun _ : Fin n => c) = c * √n := by
  have : euclid (fun _ : Fin n => c) ^ 2 = (c * √n) ^ 2 := by
    rw [euclid_sq', mul_pow, Real.sq_sqrt (Nat.cast_nonneg n)]
    simp; ring
  exact (pow_left_inj₀ (euclid_nonneg' _) (by positivity) two_ne_zero).1 this

theorem euclid_mul {n : Nat} {c : ℝ} (h : 0 ≤ c) (x : Fin n → ℝ) :
    euclid (fun i => c * x i) = c * euclid x := by
  have : euclid (fun i => c * x i) ^ 2 = (c * euclid x) ^ 2 := by
    rw [euclid_sq', mul_pow, euclid_sq', Finset.mul_sum]
    exact Finset.sum_congr rfl fun i _ => by ring
  exact (pow_left_inj₀ (euclid_nonneg' _) (mul_nonneg h (euclid_nonneg' _)) two_ne_zero).1 this

theorem euclid_abs_entry {n : Nat} (x : Fin n → ℝ) (i : Fin n) : |x i| ≤ euclid x := by
  refine Real.abs_le_sqrt ?_
  rw [sq]
  exact Finset.single_le_sum (f := fun i => x i * x i) (fun i _ => mul_self_nonneg _) (Finset.mem_univ i)

/-- From the sizes of the computed and exact terms to norms. -/
theorem euclid_near {n : Nat} {r e m : Fin n → ℝ} {g w : ℝ} (hg : 0 ≤ g) (hw : 0 ≤ w)
    (h : ∀ i, |r i - e i| ≤ g * m i + w) (hm : ∀ i, 0 ≤ m i) :
    euclid e ≤ euclid r + g * euclid m + w * √n := by
  have h1 : euclid e ≤ euclid (fun i => |r i|) + euclid (fun i => g * m i + w) := by
    refine euclid_le_add (fun i => ?_) (fun i => abs_nonneg _) (fun i => by have := hm i; positivity)
    have := h i
    calc |e i| = |r i - (r i - e i)| := by ring_nf
      _ ≤ |r i| + |r i - e i| := abs_sub _ _
      _ ≤ _ := by linarith
  have h2 : euclid (fun i => g * m i + w) ≤ euclid (fun i => g * m i) + euclid (fun _ : Fin n => w) := by
    refine euclid_le_add (fun i => ?_) (fun i => by have := hm i; positivity) (fun i => hw)
    rw [abs_of_nonneg (by have := hm i; positivity : 0 ≤ g * m i + w)]
  rw [euclid_mul hg, euclid_const hw] at h2
  have h3 : euclid (fun i => |r i|) = euclid r := by
    unfold euclid
    congr 1
    exact Finset.sum_congr rfl fun i _ => abs_mul_abs_self _
  linarith

namespace Rounding
variable {K : Type} [Scalar K] {u eta : ℝ} {F : Rounding K u eta}

/-- The constants of the error analysis. -/
structure Consts (F : Rounding K u eta) (N : Nat) (g : ℝ) : Prop where
  pos : 1 ≤ N
  eq : g = (1 + u) ^ N - 1
  lt : g < 1

namespace Consts
variable {N : Nat} {g : ℝ}

theorem u_le (h : F.Consts N g) : u ≤ g := by
  have := F.pow_mono' h.pos
  rw [pow_one] at this
  linarith [h.eq]

theorem nonneg (h : F.Consts N g) : 0 ≤ g := F.u_nonneg.trans h.u_le

/-- The error bound with the common constants. -/
theorem near (h : F.Consts N g) {n : Nat} (hn : n ≤ N) {x : K} {e m a : ℝ} (hx : F.Near n x e m)
    (ha : F.toReal x = some a) : |a - e| ≤ g * m + 2 * n * eta := by
  have m0 := hx.size_nonneg
  obtain ⟨a', h1, h2, -⟩ := hx
  rw [ha] at h1; cases h1
  have p := F.pow_mono' hn
  have hP : (1 + u) ^ N = 1 + g := by rw [h.eq]; ring
  rw [hP] at p
  have := F.eta_nonneg
  have h3 : n * (1 + u) ^ n * eta ≤ n * 2 * eta := by
    have : (1 + u) ^ n ≤ 2 := by linarith [h.lt]
    gcongr
  have h4 : ((1 + u) ^ n - 1) * m ≤ g * m := by gcongr; linarith
  linarith

end Consts

/-- A computed square root. -/
theorem sqrt_lower (hu : u < 1) {x : K} {c : ℝ} (h : F.toReal (Scalar.sqrt x) = some c) {t : ℝ} (ht : 0 ≤ t)
    (htu : t ≤ 1 - u) : ∃ a, F.toReal x = some a ∧ 0 ≤ a ∧ 0 ≤ c ∧ t ^ 2 * a ≤ c ^ 2 ∧
      c ≤ (1 + u) * √a := by
  obtain ⟨a, h1, h2, h3⟩ := F.sqrt x c h
  have s0 := Real.sqrt_nonneg a
  have h4 := abs_le.1 h3
  have h5 : t * √a ≤ c := by nlinarith [h4.1]
  refine ⟨a, h1, h2, le_trans (by positivity) h5, ?_, by linarith [h4.2]⟩
  calc t ^ 2 * a = (t * √a) ^ 2 := by rw [mul_pow, Real.sq_sqrt h2]
    _ ≤ c ^ 2 := pow_le_pow_left₀ (by positivity) h5 2

/-- One term of a norm: `x.norm * x.norm`, which rounds to `A`. -/
theorem norm_term {N : Nat} {g : ℝ} (hc : F.Consts N g) {k : Nat} (hk : 2 * k ≤ N) {x : Vec K k}
    {A : ℝ} (h : F.toReal (x.norm * x.norm) = some A) :
    ∃ r, F.Reads x r ∧ 0 ≤ A ∧ (1 - g) ^ 4 * euclid r ^ 2 ≤ A + eta + 2 * (2 * k) * eta := by
  obtain ⟨a, a', h1, h1', h2, h3, -⟩ := F.mul _ _ _ h
  rw [h1] at h1'; cases h1'
  have ht : 0 ≤ 1 - g := by linarith [hc.lt]
  obtain ⟨s, hs, s0, a0, h4, -⟩ := sqrt_lower (t := 1 - g) (by linarith [hc.u_le, hc.lt]) h1 ht (by linarith [hc.u_le])
  have hsf : F.Fin' x.squaredNorm := ⟨s, hs⟩
  obtain ⟨r, hr⟩ : ∃ r, F.Reads x r :=
    FinVec.reads (fin_dot hsf).1
  refine ⟨r, hr, h3 (mul_self_nonneg a), ?_⟩
  have hn := hc.near hk (near_squaredNorm hr hsf) hs
  have e := euclid_sq' r
  rw [← e] at hn
  have h5 := (abs_le.1 hn).1
  push_cast at h5
  have h6 := (abs_le.1 h2).1
  rw [abs_mul_self] at h6
  have ul := hc.u_le
  have e0 : 0 ≤ euclid r ^ 2 := by positivity
  have et := F.eta_nonneg
  set t := 1 - g with htd
  have t1 : t ≤ 1 := by linarith [hc.nonneg]
  have b1 : t * euclid r ^ 2 ≤ s + 2 * (2 * k) * eta := by nlinarith
  have b2 : t * (a * a) ≤ A + eta := by nlinarith [mul_self_nonneg a]
  have q0 : 0 ≤ 2 * (2 * (k : ℝ)) * eta := by positivity
  have t3 : t ^ 3 ≤ 1 := pow_le_one₀ ht t1
  calc t ^ 4 * euclid r ^ 2 = t ^ 3 * (t * euclid r ^ 2) := by ring
    _ ≤ t ^ 3 * (s + 2 * (2 * k) * eta) := by gcongr
    _ = t * (t ^ 2 * s) + t ^ 3 * (2 * (2 * k) * eta) := by ring
    _ ≤ t * (a ^ 2) + 1 * (2 * (2 * k) * eta) := by gcongr
    _ ≤ _ := by nlinarith

/-- A sum of two nonnegative numbers. -/
theorem add_lower {x y : K} {A B C g : ℝ} (hx : F.toReal x = some A) (hy : F.toReal y = some B) (hA : 0 ≤ A)
    (hB : 0 ≤ B) (h : F.toReal (x + y) = some C) (hu : u ≤ g) (hg : g ≤ 1) :
    0 ≤ C ∧ (1 - g) * A ≤ C ∧ (1 - g) * B ≤ C := by
  obtain ⟨a, b, h1, h2, h3⟩ := F.add _ _ _ h
  rw [hx] at h1; rw [hy] at h2; cases h1; cases h2
  rw [abs_of_nonneg (by linarith : 0 ≤ A + B)] at h3
  have h4 := (abs_le.1 h3).1
  have : (1 - g) * (A + B) ≤ C := by nlinarith
  refine ⟨?_, ?_, ?_⟩ <;> nlinarith

/-- What a computed norm of a triple says about the exact norms of its parts. -/
theorem norm3_lower {nz nl nv N : Nat} {g w : ℝ} (hc : F.Consts N g)
    (hN : 2 * (nz + nl + nv) + 1 ≤ N) (hw : 2 * N * eta ≤ w) {z : Vec K nz} {l : Vec K nl} {v : Vec K nv}
    {rho : ℝ} (h : F.toReal (norm3 z l v) = some rho) :
    0 ≤ rho ∧ ∃ rz rl rv, F.Reads z rz ∧ F.Reads l rl ∧ F.Reads v rv ∧
      euclid rz ≤ √(rho ^ 2 + w) / (1 - g) ^ 4 ∧ euclid rl ≤ √(rho ^ 2 + w) / (1 - g) ^ 4 ∧
      euclid rv ≤ √(rho ^ 2 + w) / (1 - g) ^ 4 := by
  have hg0 := hc.nonneg
  have hg1 := hc.lt
  have hul := hc.u_le
  have et := F.eta_nonneg
  have ht : 0 < 1 - g := by linarith
  unfold norm3 at h
  obtain ⟨S, hS, S0, r0, hS2, -⟩ := sqrt_lower (t := 1 - g) (by linarith) h ht.le (by linarith)
  obtain ⟨B, C, hB, hC, -⟩ := F.add _ _ _ hS
  obtain ⟨A1, A2, h1, h2, -⟩ := F.add _ _ _ hB
  obtain ⟨rz, hrz, p1, q1⟩ := norm_term hc (by omega) h1
  obtain ⟨rl, hrl, p2, q2⟩ := norm_term hc (by omega) h2
  obtain ⟨rv, hrv, p3, q3⟩ := norm_term hc (by omega) hC
  obtain ⟨B0, b1, b2⟩ := add_lower h1 h2 p1 p2 hB hul hg1.le
  obtain ⟨-, c1, c2⟩ := add_lower hB hC B0 p3 hS hul hg1.le
  have key : ∀ (k : Nat) (E A : ℝ), 2 * k + 1 ≤ N → 0 ≤ E → 0 ≤ A →
      (1 - g) ^ 4 * E ^ 2 ≤ A + eta + 2 * (2 * k) * eta →
      (1 - g) ^ 2 * A ≤ S → E ≤ √(rho ^ 2 + w) / (1 - g) ^ 4 := by
    intro k E A hk hE hA e1 e2
    rw [le_div_iff₀ (by positivity)]
    refine Real.le_sqrt_of_sq_le ?_
    set t := 1 - g with htd
    have t1 : t ≤ 1 := by linarith
    have t2 : t ^ 4 ≤ 1 := pow_le_one₀ ht.le t1
    have hk' : 2 * (k : ℝ) + 1 ≤ N := by exact_mod_cast hk
    have h5 : eta + 2 * (2 * k) * eta ≤ w := by nlinarith
    have h5' : 0 ≤ eta + 2 * (2 * k) * eta := by positivity
    calc (E * t ^ 4) ^ 2 = t ^ 4 * (t ^ 4 * E ^ 2) := by ring
      _ ≤ t ^ 4 * (A + eta + 2 * (2 * k) * eta) := by gcongr
      _ = t ^ 2 * (t ^ 2 * A) + t ^ 4 * (eta + 2 * (2 * k) * eta) := by ring
      _ ≤ t ^ 2 * S + 1 * (eta + 2 * (2 * k) * eta) := by gcongr
      _ ≤ rho ^ 2 + w := by linarith
  refine ⟨r0, rz, rl, rv, hrz, hrl, hrv, ?_, ?_, ?_⟩
  · exact key nz _ _ (by omega) (euclid_nonneg' _) p1 q1 (by nlinarith)
  · exact key nl _ _ (by omega) (euclid_nonneg' _) p2 q2 (by nlinarith)
  · refine key nv _ _ (by omega) (euclid_nonneg' _) p3 q3 ?_
    have : (1 - g) ^ 2 * C ≤ (1 - g) * C := by nlinarith [mul_nonneg ht.le p3]
    linarith

end Rounding
end Fbstab
