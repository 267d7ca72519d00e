import Verif.Proofs.RoundingMpc
import Verif.Proofs.Certificates
import Verif.Spec.RoundedCertificates

/-!
# The feasibility check in rounded arithmetic
-/

namespace Fbstab
open Matrix
theorem Ocp.A_c_size {N nx nu nc : Nat} (p : Ocp N nx nu nc) (z : Fin ((N + 1) * (nx + nu)) → ℝ)
    (i : Fin (N + 1)) (j : Fin nc) :
    (∑ a, |p.E i j a| * |z (xIdx i a)|) + (∑ a, |p.L i j a| * |z (uIdx i a)|) ≤
      ∑ a, |p.toQP.A (flatIdx i j) a| * |z a| := by
  rw [sum_stage]
  refine le_trans (le_of_eq ?_) (Finset.single_le_sum (a := i) (fun b _ => ?_) (Finset.mem_univ i))
  · simp [toQP]
  · positivity

namespace Rounding
variable {K : Type} [Scalar K] {u eta : ℝ} {F : Rounding K u eta}

theorem cabs_toReal {x : K} {a : ℝ} (hx : F.toReal x = some a) : F.toReal (cabs x) = some |a| := by
  unfold cabs
  by_cases h : a < 0
  · rw [if_pos ((F.lt _ _ _ _ hx F.zero).2 h), F.neg, hx, abs_of_neg h]; rfl
  · rw [if_neg (mt (F.lt _ _ _ _ hx F.zero).1 h), hx, abs_of_nonneg (not_lt.1 h)]

theorem foldl_cmax {n : Nat} {f : Fin n → K} {r : Fin n → ℝ} (h : ∀ i, F.toReal (f i) = some (r i))
    {c : K} {a : ℝ} (hc : F.toReal c = some a) :
    F.toReal (Fin.foldl n (fun acc i => cmax acc (f i)) c) =
      some (Fin.foldl n (fun acc i => max acc (r i)) a) := by
  induction n generalizing c a with
  | zero => simpa using hc
  | succ n ih =>
    rw [Fin.foldl_succ, Fin.foldl_succ]
    exact ih (fun i => h i.succ) (cmax_toReal hc (h 0))

theorem lpNormInf_toReal {n : Nat} {x : Vec K n} {r : Fin n → ℝ} (h : F.Reads x r) :
    F.toReal x.lpNormInf = some ‖r‖ := by
  have h1 := foldl_cmax (F := F) (f := fun i => cabs (x i)) (fun i => cabs_toReal (h i)) F.zero
  unfold Vec.lpNormInf
  rw [h1]
  have := Vec.lpNormInf_eq (Vec.ofFn r)
  simp only [Vec.lpNormInf, cmax_eq_max, cabs_eq_abs, Vec.get_ofFn] at this
  rw [this]
  congr 2
  ext i
  simp [Vec.fn]

theorem maxCoeff_toReal {n : Nat} {x : Vec K n} {r : Fin n → ℝ} (h : F.Reads x r) :
    F.toReal x.maxCoeff = some (Vec.maxCoeff (Vec.ofFn r)) := by
  cases n with
  | zero => exact F.zero
  | succ n =>
    have h1 := foldl_cmax (F := F) (f := fun i : Fin n => x i.succ) (fun i => h i.succ) (h 0)
    unfold Vec.maxCoeff
    rw [h1]
    simp only [cmax_eq_max, Vec.get_ofFn]

/-- What the feasibility check needs to know of the problem data: the sums it evaluates are near the exact
ones.  `W` says which old workspaces do not disturb the products. -/
structure FeasOps (F : Rounding K u eta) {nz nl nv : Nat} (q : QP nz nl nv) (ops : QPOps K nz nl nv)
    (W : FeasWs K nz nl nv → Prop) (n : Nat) : Prop where
  sum : ∀ l v, F.FinVec (multiplierSum ops l v) → ∃ rl rv, F.Reads l rl ∧ F.Reads v rv ∧
    ∀ i, F.Near n (multiplierSum ops l v i) ((q.Aᵀ *ᵥ rv + q.Gᵀ *ᵥ rl) i) (q.multiplierSize rl rv i)
  value : ∀ l v rl rv, F.Reads l rl → F.Reads v rv → F.Fin' (certificateValue ops l v) →
    F.Near n (certificateValue ops l v) (q.b ⬝ᵥ rv + q.h ⬝ᵥ rl)
      ((∑ i, |q.b i| * |rv i|) + ∑ i, |q.h i| * |rl i|)
  slope : ∀ z rz, F.Reads z rz → F.Fin' (slope ops z) →
    F.Near n (Fbstab.slope ops z) (q.f ⬝ᵥ rz) (∑ i, |q.f i| * |rz i|)
  H0 : ∀ z, F.FinVec (ops.gemvH z 1 0 (Vec.const 0)) → F.FinVec z
  A : ∀ z rz ws, W ws → F.Reads z rz → F.FinVec (ops.gemvA z 1 0 (Vec.const 0)) →
    ∀ i, F.Near n (ops.gemvA z 1 0 ws.tv i) ((q.A *ᵥ rz) i) (∑ j, |q.A i j| * |rz j|)
  G : ∀ z rz ws, W ws → F.Reads z rz → F.FinVec (ops.gemvG z 1 0 (Vec.const 0)) →
    ∀ i, F.Near n (ops.gemvG z 1 0 ws.tl i) ((q.G *ᵥ rz) i) (∑ j, |q.G i j| * |rz j|)
  H : ∀ z rz ws, W ws → F.Reads z rz → F.FinVec (ops.gemvH z 1 0 (Vec.const 0)) →
    ∀ i, F.Near n (ops.gemvH z 1 0 ws.tz i) ((q.H *ᵥ rz) i) (∑ j, |q.H i j| * |rz j|)

section
variable {nz nl nv n N : Nat} {q : QP nz nl nv} {ops : QPOps K nz nl nv} {W : FeasWs K nz nl nv → Prop}

/-- A rounded product of nonnegative numbers. -/
theorem bound_up {N : Nat} {g : ℝ} (hc : F.Consts N g) {x y : K} {a b c : ℝ} (hx : F.toReal x = some a)
    (hy : F.toReal y = some b) (ha : 0 ≤ a) (hb : 0 ≤ b) (h : F.toReal (x * y) = some c) :
    c ≤ (1 + g) * (a * b) + eta := by
  obtain ⟨a', b', h1, h2, h3, -⟩ := F.mul _ _ _ h
  rw [hx] at h1; rw [hy] at h2; cases h1; cases h2
  have p := mul_nonneg ha hb
  rw [abs_of_nonneg p] at h3
  have := (abs_le.1 h3).2
  have := mul_le_mul_of_nonneg_right hc.u_le p
  linarith

theorem eta_bound {w : ℝ} (F : Rounding K u eta) (hn : n + 1 ≤ N) (hw : 2 * N * eta ≤ w) :
    2 * n * eta + eta ≤ w := by
  have hη := F.eta_nonneg
  have : (n : ℝ) + 1 ≤ N := by exact_mod_cast hn
  nlinarith

theorem FeasOps.primal (hq : F.FeasOps q ops W n) (hn : n + 1 ≤ N) {g w : ℝ} (hc : F.Consts N g)
    (hw : 2 * N * eta ≤ w) {tol : K} {tau : ℝ} (ht : F.toReal tol = some tau) (h0 : 0 ≤ tau)
    {x : Point K nz nl nv} {ws : FeasWs K nz nl nv} (hf : F.PrimalFinite ops tol x.l x.v)
    (h : (checkFeasibility ops x tol ws).1 = .primalInfeasible ∨ (checkFeasibility ops x tol ws).1 = .both) :
    ∃ l v, F.Reads x.l l ∧ F.Reads x.v v ∧ q.RoundedPrimalCertificate tau g w l v := by
  have h' : (multiplierSum ops x.l x.v).lpNormInf ≤ tol * cmax x.v.lpNormInf x.l.lpNormInf ∧
      certificateValue ops x.l x.v < 0 := by
    simp only [checkFeasibility] at h
    by_contra hcon
    rw [not_and_or] at hcon
    have hp : (decide ((multiplierSum ops x.l x.v).lpNormInf ≤ tol * cmax x.v.lpNormInf x.l.lpNormInf) &&
        decide (certificateValue ops x.l x.v < 0)) = false := by
      rcases hcon with hcon | hcon <;> simp [hcon]
    unfold multiplierSum certificateValue at hp
    rw [hp] at h
    generalize (!(decide ((ops.gemvA x.z 1 0 ws.tv).maxCoeff ≤ x.z.lpNormInf * tol) &&
        decide ((ops.gemvG x.z 1 0 ws.tl).lpNormInf ≤ tol * x.z.lpNormInf) &&
        decide ((ops.gemvH x.z 1 0 ws.tz).lpNormInf ≤ tol * x.z.lpNormInf) &&
        decide ((ops.axpyf 1 (Vec.const 0)).dot x.z < 0) && decide ((1e-14 : K) < x.z.lpNormInf))) = B at h
    cases B <;> simp at h
  obtain ⟨hs, hv⟩ := h'
  obtain ⟨s, hs'⟩ := hf.sum
  obtain ⟨l, v, hl, hv', near⟩ := hq.sum x.l x.v fun i => ⟨_, hs' i⟩
  refine ⟨l, v, hl, hv', ?_, ?_⟩
  · intro i
    obtain ⟨c, hcc⟩ := hf.bound
    have hm := cmax_toReal (lpNormInf_toReal hv') (lpNormInf_toReal hl)
    have hb := bound_up hc ht hm h0 (le_max_of_le_left (norm_nonneg _)) hcc
    have hle := (F.le _ _ _ _ (lpNormInf_toReal hs') hcc).1 hs
    have h1 := (norm_le_pi_norm s i).trans hle
    rw [Real.norm_eq_abs] at h1
    have h2 := hc.near (by omega) (near i) (hs' i)
    have h3 := eta_bound F hn hw
    have h4 := abs_sub (s i) (s i - (q.Aᵀ *ᵥ v + q.Gᵀ *ᵥ l) i)
    rw [sub_sub_cancel] at h4
    linarith
  · obtain ⟨c, hcc⟩ := hf.value
    have h1 := (F.lt _ _ _ _ hcc F.zero).1 hv
    have h2 := hc.near (by omega) (hq.value x.l x.v l v hl hv' ⟨c, hcc⟩) hcc
    have h3 := eta_bound F hn hw
    have := (abs_le.1 h2).1
    have := F.eta_nonneg
    linarith

theorem FeasOps.dual (hq : F.FeasOps q ops W n) (hn : n + 1 ≤ N) {g w : ℝ} (hc : F.Consts N g)
    (hw : 2 * N * eta ≤ w) {tol : K} {tau eps : ℝ} (ht : F.toReal tol = some tau) (h0 : 0 ≤ tau)
    (he : F.toReal (1e-14 : K) = some eps)
    {x : Point K nz nl nv} {ws : FeasWs K nz nl nv} (hW : W ws) (hf : F.DualFinite ops tol x.z)
    (h : (checkFeasibility ops x tol ws).1 = .dualInfeasible ∨ (checkFeasibility ops x tol ws).1 = .both) :
    ∃ z, F.Reads x.z z ∧ q.RoundedDualCertificate tau eps g w z := by
  have h' : (ops.gemvA x.z 1 0 ws.tv).maxCoeff ≤ x.z.lpNormInf * tol ∧
      (ops.gemvG x.z 1 0 ws.tl).lpNormInf ≤ tol * x.z.lpNormInf ∧
      (ops.gemvH x.z 1 0 ws.tz).lpNormInf ≤ tol * x.z.lpNormInf ∧
      Fbstab.slope ops x.z < 0 ∧ (1e-14 : K) < x.z.lpNormInf := by
    simp only [checkFeasibility] at h
    by_contra hcon
    have hp : (decide ((ops.gemvA x.z 1 0 ws.tv).maxCoeff ≤ x.z.lpNormInf * tol) &&
        decide ((ops.gemvG x.z 1 0 ws.tl).lpNormInf ≤ tol * x.z.lpNormInf) &&
        decide ((ops.gemvH x.z 1 0 ws.tz).lpNormInf ≤ tol * x.z.lpNormInf) &&
        decide (Fbstab.slope ops x.z < 0) && decide ((1e-14 : K) < x.z.lpNormInf)) = false := by
      rw [← Bool.not_eq_true]
      intro ht
      simp only [Bool.and_eq_true, decide_eq_true_eq] at ht
      exact hcon ⟨ht.1.1.1.1, ht.1.1.1.2, ht.1.1.2, ht.1.2, ht.2⟩
    unfold Fbstab.slope at hp
    rw [hp] at h
    generalize (!(decide ((ops.gemvGT x.l 1 1 (ops.gemvAT x.v 1 1 (Vec.const 0))).lpNormInf ≤
        tol * cmax x.v.lpNormInf x.l.lpNormInf) &&
      decide ((ops.axpyh 1 (Vec.const 0)).dot x.l + (ops.axpyb 1 (Vec.const 0)).dot x.v < 0))) = B at h
    cases B <;> simp at h
  obtain ⟨hA, hG, hH, hs, hz⟩ := h'
  have fv : ∀ {k : Nat} {y : Vec K k}, (∃ r, F.Reads y r) → F.FinVec y := fun ⟨r, hr⟩ i => ⟨_, hr i⟩
  obtain ⟨z, rz⟩ := (hq.H0 x.z (fv hf.H)).reads
  obtain ⟨c, hcc⟩ := hf.bound
  have hb := bound_up hc ht (lpNormInf_toReal rz) h0 (norm_nonneg _) hcc
  have h3 := eta_bound F hn hw
  have hη := F.eta_nonneg
  have aux : ∀ {a b d e : ℝ}, |a - b| ≤ d → |a| ≤ e → |b| ≤ e + d := by
    intro a b d e h1 h2
    have h4 := abs_sub a (a - b)
    rw [sub_sub_cancel] at h4
    linarith
  refine ⟨z, rz, ?_, ?_, ?_, ?_, ?_⟩
  · intro i
    have near := hq.A x.z z ws hW rz (fv hf.A)
    obtain ⟨r, hr⟩ := FinVec.reads (F := F) fun i => (near i).fin
    have h2 := hc.near (by omega) (near i) (hr i)
    rw [F.mul_swap] at hcc
    have hle := (F.le _ _ _ _ (maxCoeff_toReal hr) hcc).1 hA
    have hri : r i ≤ max c 0 := by
      have := (Vec.maxCoeff_le (Vec.ofFn r) (max c 0) (le_max_right _ _)).1 (hle.trans (le_max_left _ _)) i
      rwa [Vec.get_ofFn] at this
    have hbb : max c 0 ≤ (1 + g) * (tau * ‖z‖) + eta := by
      refine max_le hb ?_
      have := hc.nonneg
      positivity
    have := (abs_le.1 h2).1
    linarith
  · intro i
    have near := hq.G x.z z ws hW rz (fv hf.G)
    obtain ⟨r, hr⟩ := FinVec.reads (F := F) fun i => (near i).fin
    have h2 := hc.near (by omega) (near i) (hr i)
    have hle := (F.le _ _ _ _ (lpNormInf_toReal hr) hcc).1 hG
    have h1 := (norm_le_pi_norm r i).trans hle
    rw [Real.norm_eq_abs] at h1
    have := aux h2 h1
    linarith
  · intro i
    have near := hq.H x.z z ws hW rz (fv hf.H)
    obtain ⟨r, hr⟩ := FinVec.reads (F := F) fun i => (near i).fin
    have h2 := hc.near (by omega) (near i) (hr i)
    have hle := (F.le _ _ _ _ (lpNormInf_toReal hr) hcc).1 hH
    have h1 := (norm_le_pi_norm r i).trans hle
    rw [Real.norm_eq_abs] at h1
    have := aux h2 h1
    linarith
  · obtain ⟨c, hcc⟩ := hf.value
    have h1 := (F.lt _ _ _ _ hcc F.zero).1 hs
    have h2 := hc.near (by omega) (hq.slope x.z z rz ⟨c, hcc⟩) hcc
    have := (abs_le.1 h2).1
    linarith
  · exact (F.lt _ _ _ _ he (lpNormInf_toReal rz)).1 hz

end

/-! ### Dense data -/

theorem near_dot {k : Nat} {x y : Vec K k} {a b : Fin k → ℝ} (hx : F.Reads x a) (hy : F.Reads y b)
    (h : F.Fin' (x.dot y)) : F.Near (2 * k) (x.dot y) (a ⬝ᵥ b) (∑ i, |a i| * |b i|) := by
  exact near_dotFin hx hy h

theorem finVec_of {k : Nat} {y : Vec K k} (h : ∃ r, F.Reads y r) : F.FinVec y :=
  fun i => ⟨_, h.choose_spec i⟩

section
variable {nz nl nv : Nat} {d : DenseData K nz nl nv} {q : QP nz nl nv}

theorem toReal_add_mul_zero {x y : K} (hy : F.Fin' y) : F.toReal (x + 0 * y) = F.toReal x := by
  obtain ⟨b, hb⟩ := hy
  exact F.add_of_zero _ _ (F.mul_of_zero _ _ _ F.zero hb)

theorem dense_axpyf (h : F.ReadsDense d q) : F.Reads (d.ops.axpyf 1 (Vec.const 0)) q.f := by
  intro i
  simp only [DenseData.ops, DenseData.axpyf, Vec.get_add, Vec.get_smul, Vec.get_const]
  rw [F.add_of_zero_left _ _ F.zero, F.one_mul _ _ F.one, h.f]

theorem dense_axpyh (h : F.ReadsDense d q) : F.Reads (d.ops.axpyh 1 (Vec.const 0)) q.h := by
  intro i
  simp only [DenseData.ops, DenseData.axpyh, Vec.get_add, Vec.get_smul, Vec.get_const]
  rw [F.add_of_zero_left _ _ F.zero, F.one_mul _ _ F.one, h.h]

theorem dense_axpyb (h : F.ReadsDense d q) : F.Reads (d.ops.axpyb 1 (Vec.const 0)) q.b := by
  intro i
  simp only [DenseData.ops, DenseData.axpyb, Vec.get_add, Vec.get_smul, Vec.get_const]
  rw [F.add_of_zero_left _ _ F.zero, F.one_mul _ _ F.one, h.b]

/-- A product `1 * M * z + 0 * y` with a finite old content `y`. -/
theorem dense_prod {r c : Nat} {M : Mat K r c} {R : Matrix (Fin r) (Fin c) ℝ} (hM : F.ReadsMat M R)
    {z : Vec K c} {rz : Fin c → ℝ} (hz : F.Reads z rz) {y : Vec K r} (hy : F.FinVec y)
    (h : F.FinVec (((1 : K) * M) * z + (0 : K) * (Vec.const 0 : Vec K r))) (i : Fin r) :
    F.Near (2 * c) ((((1 : K) * M) * z + (0 : K) * y) i) ((R *ᵥ rz) i) (∑ j, |R i j| * |rz j|) := by
  have h0 := h i
  rw [Vec.get_add, Vec.get_smul, Vec.get_const] at h0
  have e0 := toReal_add_mul_zero (F := F) (x := (((1 : K) * M) * z) i) ⟨0, F.zero⟩
  have e1 := toReal_add_mul_zero (F := F) (x := (((1 : K) * M) * z) i) (hy i)
  obtain ⟨a, ha⟩ := h0
  rw [e0] at ha
  have near := near_mulVec (F := F) (M := (1 : K) * M) (a := fun j => R i j)
    (fun j => by rw [Mat.get_smul, F.one_mul _ _ F.one]; exact hM i j) hz ⟨a, ha⟩
  obtain ⟨a', n1, n2⟩ := near
  refine ⟨a', ?_, n2⟩
  rw [Vec.get_add, Vec.get_smul, e1, n1]

theorem denseFeas (hz : 0 < nz) (h : F.ReadsDense d q) :
    F.FeasOps q d.ops F.WsFinite (2 * (nz + nl + nv) + 4) where
  sum l v hf := by
    have e : ∀ i, multiplierSum d.ops l v i =
        (((1 : K) * d.G.transpose) * l) i + 1 * ((((1 : K) * d.A.transpose) * v) i + 1 * 0) := by
      intro i
      simp only [multiplierSum, DenseData.ops, DenseData.gemvAT, DenseData.gemvGT, Vec.get_add, Vec.get_smul,
        Vec.get_const]
    have hf' : ∀ i, F.Fin' ((((1 : K) * d.G.transpose) * l) i) ∧
        F.Fin' ((((1 : K) * d.A.transpose) * v) i + 1 * 0) ∧ F.Fin' ((((1 : K) * d.A.transpose) * v) i) := by
      intro i
      have h0 := hf i
      rw [e] at h0
      obtain ⟨h1, h2⟩ := fin_add h0
      have h2 := (fin_mul h2).2
      exact ⟨h1, h2, (fin_add h2).1⟩
    obtain ⟨rl, hrl⟩ := (fin_mulVec (hf' ⟨0, hz⟩).1).reads
    obtain ⟨rv, hrv⟩ := (fin_mulVec (hf' ⟨0, hz⟩).2.2).reads
    refine ⟨rl, rv, hrl, hrv, fun i => ?_⟩
    obtain ⟨h1, h2, h3⟩ := hf' i
    have nG := near_mulVec (F := F) (M := (1 : K) * d.G.transpose) (a := fun j => q.G j i)
      (fun j => by rw [Mat.get_smul, Mat.get_transpose, F.one_mul _ _ F.one]; exact h.G j i) hrl h1
    have nA := near_mulVec (F := F) (M := (1 : K) * d.A.transpose) (a := fun j => q.A j i)
      (fun j => by rw [Mat.get_smul, Mat.get_transpose, F.one_mul _ _ F.one]; exact h.A j i) hrv h3
    have n1 := nA.add (near_exact F.zero).one_mul (N := 2 * nv + 1) (by omega) h2
    have n2 := nG.add n1.one_mul (N := 2 * (nz + nl + nv) + 4) (by omega) (by rw [← e]; exact hf i)
    rw [e]
    refine n2.congr ?_ ?_
    · simp only [Pi.add_apply, mulVec, dotProduct, transpose_apply]; ring
    · simp only [QP.multiplierSize, abs_zero]; ring
  value l v rl rv hl hv hf := by
    obtain ⟨h1, h2⟩ := fin_add hf
    have := (near_dot (dense_axpyh h) hl h1).add (near_dot (dense_axpyb h) hv h2)
      (N := 2 * (nz + nl + nv) + 4) (by omega) hf
    exact this.congr (add_comm _ _) (add_comm _ _)
  slope z rz hz hf := (near_dot (dense_axpyf h) hz hf).mono (by omega) le_rfl
  H0 z hf := by
    have h0 := hf ⟨0, hz⟩
    simp only [DenseData.ops, DenseData.gemvH] at h0
    rw [Vec.get_add] at h0
    exact fin_mulVec (fin_add h0).1
  A z rz ws hW hz hf i := (dense_prod h.A hz (finVec_of hW.tv) hf i).mono (by omega) le_rfl
  G z rz ws hW hz hf i := (dense_prod h.G hz (finVec_of hW.tl) hf i).mono (by omega) le_rfl
  H z rz ws hW hz hf i := (dense_prod h.H hz (finVec_of hW.tz) hf i).mono (by omega) le_rfl

end

/-! ### MPC data -/

section
variable {N nx nu nc : Nat} {d : MpcData K N nx nu nc} {p : Ocp N nx nu nc}

theorem mpc_axpyf (h : F.ReadsMpc d p) : F.Reads (d.ops.axpyf 1 (Vec.const 0)) p.toQP.f := by
  unfold Reads
  rw [forall_stage]
  refine fun i => ⟨fun j => ?_, fun j => ?_⟩
  · rw [← xBlock_get]
    simp only [MpcData.ops]
    rw [(d.axpyf_any_gen _ _ i).1]
    simp only [Vec.get_add, Vec.get_smul, xBlock_get, Vec.get_const]
    rw [F.add_of_zero_left _ _ F.zero, F.one_mul _ _ F.one, h.q]
    simp [Ocp.toQP]
  · rw [← uBlock_get]
    simp only [MpcData.ops]
    rw [(d.axpyf_any_gen _ _ i).2]
    simp only [Vec.get_add, Vec.get_smul, uBlock_get, Vec.get_const]
    rw [F.add_of_zero_left _ _ F.zero, F.one_mul _ _ F.one, h.r]
    simp [Ocp.toQP]

theorem mpc_axpyh (h : F.ReadsMpc d p) : F.Reads (d.ops.axpyh 1 (Vec.const 0)) p.toQP.h := by
  unfold Reads
  rw [forall_flat]
  intro i j
  rw [← colBlock_get]
  simp only [MpcData.ops]
  refine Fin.cases ?_ (fun i => ?_) i
  · rw [(d.axpyh_any_gen _ _).1]
    simp only [Vec.get_add, Vec.get_smul, colBlock_get, Vec.get_const]
    rw [F.add_of_zero_left _ _ F.zero, F.neg_one_mul _ _ F.neg_one, h.x0]
    simp [Ocp.toQP]
  · rw [(d.axpyh_any_gen _ _).2 i]
    simp only [Vec.get_add, Vec.get_smul, colBlock_get, Vec.get_const]
    rw [F.add_of_zero_left _ _ F.zero, F.neg_one_mul _ _ F.neg_one, h.c]
    simp [Ocp.toQP]

theorem mpc_axpyb (h : F.ReadsMpc d p) : F.Reads (d.ops.axpyb 1 (Vec.const 0)) p.toQP.b := by
  unfold Reads
  rw [forall_flat]
  intro i j
  rw [← colBlock_get]
  simp only [MpcData.ops]
  rw [d.axpyb_any_gen _ _ i]
  simp only [Vec.get_add, Vec.get_smul, colBlock_get, Vec.get_const]
  rw [F.add_of_zero_left _ _ F.zero, F.neg_one_mul _ _ F.neg_one, h.d]
  simp [Ocp.toQP]

/-- Rows of `A'v + G'l`. -/
theorem mpc_sum_x (hb : BeqOk K) (l v) (i : Fin (N + 1)) (j : Fin nx) :
    (∃ i' : Fin N, i = i'.castSucc ∧ multiplierSum d.ops l v (xIdx i j) =
      0 + ((d.E i).transpose * colBlock v i) j + -1 * l (flatIdx i j) +
        ((d.A i').transpose * colBlock l i'.succ) j) ∨
    (i = Fin.last N ∧ multiplierSum d.ops l v (xIdx i j) =
      0 + ((d.E i).transpose * colBlock v i) j + -1 * l (flatIdx i j)) := by
  rw [← xBlock_get]
  simp only [multiplierSum, MpcData.ops]
  refine Fin.lastCases (.inr ⟨rfl, ?_⟩) (fun i => .inl ⟨i, rfl, ?_⟩) i
  · rw [(d.gemvGT_one_gen hb _ _).1.1, (d.gemvAT_one_gen hb _ _ _).1]
    simp only [Vec.get_add, Vec.get_smul, colBlock_get, xBlock_get, Vec.get_const]
  · rw [((d.gemvGT_one_gen hb _ _).2 i).1, (d.gemvAT_one_gen hb _ _ _).1]
    simp only [Vec.get_add, Vec.get_smul, colBlock_get, xBlock_get, Vec.get_const]

theorem mpc_sum_u (hb : BeqOk K) (l v) (i : Fin (N + 1)) (j : Fin nu) :
    (∃ i' : Fin N, i = i'.castSucc ∧ multiplierSum d.ops l v (uIdx i j) =
      0 + ((d.L i).transpose * colBlock v i) j + ((d.B i').transpose * colBlock l i'.succ) j) ∨
    (i = Fin.last N ∧ multiplierSum d.ops l v (uIdx i j) =
      0 + ((d.L i).transpose * colBlock v i) j) := by
  rw [← uBlock_get]
  simp only [multiplierSum, MpcData.ops]
  refine Fin.lastCases (.inr ⟨rfl, ?_⟩) (fun i => .inl ⟨i, rfl, ?_⟩) i
  · rw [(d.gemvGT_one_gen hb _ _).1.2, (d.gemvAT_one_gen hb _ _ _).2]
    simp only [Vec.get_add, uBlock_get, Vec.get_const]
  · rw [((d.gemvGT_one_gen hb _ _).2 i).2, (d.gemvAT_one_gen hb _ _ _).2]
    simp only [Vec.get_add, uBlock_get, Vec.get_const]

theorem mpcSum (hx0 : 0 < nx) (h : F.ReadsMpc d p) (l v) (hf : F.FinVec (multiplierSum d.ops l v)) :
    ∃ rl rv, F.Reads l rl ∧ F.Reads v rv ∧ ∀ i,
      F.Near (4 * nx + 2 * nu + 2 * nc + 6) (multiplierSum d.ops l v i)
        ((p.toQP.Aᵀ *ᵥ rv + p.toQP.Gᵀ *ᵥ rl) i) (p.toQP.multiplierSize rl rv i) := by
  have hb := F.beqOk
  have key : ∀ i : Fin (N + 1), ∀ j : Fin nx, F.Fin' (l (flatIdx i j)) ∧
      F.Fin' (((d.E i).transpose * colBlock v i) j) := by
    intro i j
    have h0 := hf (xIdx i j)
    rcases mpc_sum_x (d := d) hb l v i j with ⟨i', -, e⟩ | ⟨-, e⟩
    · rw [e] at h0
      obtain ⟨h1, h2⟩ := fin_add h0
      obtain ⟨h3, h4⟩ := fin_add h1
      exact ⟨(fin_mul h4).2, (fin_add h3).2⟩
    · rw [e] at h0
      obtain ⟨h3, h4⟩ := fin_add h0
      exact ⟨(fin_mul h4).2, (fin_add h3).2⟩
  have fl : F.FinVec l := by
    intro a
    obtain ⟨i, j, rfl⟩ := flatIdx_surj a
    exact (key i j).1
  have fv : F.FinVec v := by
    intro a
    obtain ⟨i, j, rfl⟩ := flatIdx_surj a
    have := fin_mulVec (key i ⟨0, hx0⟩).2 j
    rwa [colBlock_get] at this
  obtain ⟨rl, hl⟩ := fl.reads
  obtain ⟨rv, hv⟩ := fv.reads
  refine ⟨rl, rv, hl, hv, ?_⟩
  have hlc : ∀ i, F.Reads (colBlock l i) (fun j => rl (flatIdx i j)) := fun i j => by
    rw [colBlock_get]; exact hl _
  have hvc : ∀ i, F.Reads (colBlock v i) (fun j => rv (flatIdx i j)) := fun i j => by
    rw [colBlock_get]; exact hv _
  rw [forall_stage]
  refine fun i => ⟨fun j => ?_, fun j => ?_⟩
  · have h0 := hf (xIdx i j)
    rcases mpc_sum_x (d := d) hb l v i j with ⟨i', rfl, e⟩ | ⟨rfl, e⟩
    · rw [e] at h0 ⊢
      obtain ⟨h1, h2⟩ := fin_add h0
      obtain ⟨h3, h4⟩ := fin_add h1
      obtain ⟨h5, h6⟩ := fin_add h3
      have n1 := (near_exact F.zero).add (near_mulVecT (h.E _) (hvc _) h6) (N := 2 * nc + 1) (by omega) h3
      have n2 := n1.add (near_exact (hl _)).neg_one_mul (N := 2 * nc + 2) (by omega) h1
      have n3 := n2.add (near_mulVecT (h.A _) (hlc _) h2) (N := 4 * nx + 2 * nu + 2 * nc + 6) (by omega) h0
      refine (n3.congr (e' := (p.toQP.Aᵀ *ᵥ rv + p.toQP.Gᵀ *ᵥ rl) (xIdx i'.castSucc j)) ?_ rfl).mono le_rfl ?_
      · simp only [Pi.add_apply, p.GT_castSucc_x, p.AT_x]; ring
      · simp only [QP.multiplierSize, abs_zero]
        have a2 := p.GT_x_size rl i' j
        have a3 := p.A_x_size rv i'.castSucc j
        linarith
    · rw [e] at h0 ⊢
      obtain ⟨h3, h4⟩ := fin_add h0
      obtain ⟨h5, h6⟩ := fin_add h3
      have n1 := (near_exact F.zero).add (near_mulVecT (h.E _) (hvc _) h6) (N := 2 * nc + 1) (by omega) h3
      have n2 := n1.add (near_exact (hl _)).neg_one_mul (N := 4 * nx + 2 * nu + 2 * nc + 6) (by omega) h0
      refine (n2.congr (e' := (p.toQP.Aᵀ *ᵥ rv + p.toQP.Gᵀ *ᵥ rl) (xIdx (Fin.last N) j)) ?_ rfl).mono le_rfl ?_
      · simp only [Pi.add_apply, p.GT_last_x, p.AT_x]; ring
      · simp only [QP.multiplierSize, abs_zero]
        have a2 := p.GT_last_size rl j
        have a3 := p.A_x_size rv (Fin.last N) j
        linarith
  · have h0 := hf (uIdx i j)
    rcases mpc_sum_u (d := d) hb l v i j with ⟨i', rfl, e⟩ | ⟨rfl, e⟩
    · rw [e] at h0 ⊢
      obtain ⟨h1, h2⟩ := fin_add h0
      obtain ⟨h3, h4⟩ := fin_add h1
      have n1 := (near_exact F.zero).add (near_mulVecT (h.L _) (hvc _) h4) (N := 2 * nc + 1) (by omega) h1
      have n3 := n1.add (near_mulVecT (h.B _) (hlc _) h2) (N := 4 * nx + 2 * nu + 2 * nc + 6) (by omega) h0
      refine (n3.congr (e' := (p.toQP.Aᵀ *ᵥ rv + p.toQP.Gᵀ *ᵥ rl) (uIdx i'.castSucc j)) ?_ rfl).mono le_rfl ?_
      · simp only [Pi.add_apply, p.GT_castSucc_u, p.AT_u]; ring
      · simp only [QP.multiplierSize, abs_zero]
        have a2 := p.GT_u_size rl i' j
        have a3 := p.A_u_size rv i'.castSucc j
        linarith
    · rw [e] at h0 ⊢
      obtain ⟨h1, h2⟩ := fin_add h0
      have n1 := (near_exact F.zero).add (near_mulVecT (h.L _) (hvc _) h2)
        (N := 4 * nx + 2 * nu + 2 * nc + 6) (by omega) h0
      refine (n1.congr (e' := (p.toQP.Aᵀ *ᵥ rv + p.toQP.Gᵀ *ᵥ rl) (uIdx (Fin.last N) j)) ?_ rfl).mono le_rfl ?_
      · simp only [Pi.add_apply, p.GT_last_u, p.AT_u]; ring
      · simp only [QP.multiplierSize, abs_zero]
        have a2 : 0 ≤ ∑ a, |p.toQP.G a (uIdx (Fin.last N) j)| * |rl a| := by positivity
        have a3 := p.A_u_size rv (Fin.last N) j
        linarith

theorem mpc_A (h : F.ReadsMpc d p) (z rz) (hz : F.Reads z rz) (hf : F.FinVec (d.gemvA z 1 1 (Vec.const 0))) (i) :
    F.Near (4 * nx + 2 * nu + 2 * nc + 6) (d.gemvA z 1 1 (Vec.const 0) i) ((p.toQP.A *ᵥ rz) i)
      (∑ j, |p.toQP.A i j| * |rz j|) := by
  have hb := F.beqOk
  have hzx : ∀ i, F.Reads (xBlock z i) (fun j => rz (xIdx i j)) := fun i j => by rw [xBlock_get]; exact hz _
  have hzu : ∀ i, F.Reads (uBlock z i) (fun j => rz (uIdx i j)) := fun i j => by rw [uBlock_get]; exact hz _
  have sx : ∀ i, Ocp.states rz i = fun j => rz (xIdx i j) := fun i => by funext j; rw [states_eq]
  have su : ∀ i, Ocp.controls rz i = fun j => rz (uIdx i j) := fun i => by funext j; rw [controls_eq]
  revert i
  rw [forall_flat]
  intro i j
  have h0 := hf (flatIdx i j)
  rw [← colBlock_get, d.gemvA_one_gen hb] at h0 ⊢
  simp only [Vec.get_add, colBlock_get, Vec.get_const] at h0 ⊢
  obtain ⟨h1, h2⟩ := fin_add h0
  obtain ⟨h3, h4⟩ := fin_add h2
  have n1 := (near_mulVec' (h.E i) (hzx _) h3).add (near_mulVec' (h.L i) (hzu _) h4)
    (N := 2 * nx + 2 * nu + 1) le_rfl h2
  have n2 := (near_exact F.zero).add n1 (N := 4 * nx + 2 * nu + 2 * nc + 6) (by omega) h0
  refine (n2.congr (e' := (p.toQP.A *ᵥ rz) (flatIdx i j)) ?_ rfl).mono le_rfl ?_
  · rw [p.A_c, sx, su]; ring
  · have := p.A_c_size rz i j
    rw [abs_zero]; linarith

theorem mpc_H (h : F.ReadsMpc d p) (z rz) (hz : F.Reads z rz) (hf : F.FinVec (d.gemvH z 1 1 (Vec.const 0))) (i) :
    F.Near (4 * nx + 2 * nu + 2 * nc + 6) (d.gemvH z 1 1 (Vec.const 0) i) ((p.toQP.H *ᵥ rz) i)
      (∑ j, |p.toQP.H i j| * |rz j|) := by
  have hb := F.beqOk
  have hzx : ∀ i, F.Reads (xBlock z i) (fun j => rz (xIdx i j)) := fun i j => by rw [xBlock_get]; exact hz _
  have hzu : ∀ i, F.Reads (uBlock z i) (fun j => rz (uIdx i j)) := fun i j => by rw [uBlock_get]; exact hz _
  have sx : ∀ i, Ocp.states rz i = fun j => rz (xIdx i j) := fun i => by funext j; rw [states_eq]
  have su : ∀ i, Ocp.controls rz i = fun j => rz (uIdx i j) := fun i => by funext j; rw [controls_eq]
  revert i
  rw [forall_stage]
  refine fun i => ⟨fun j => ?_, fun j => ?_⟩
  · have h0 := hf (xIdx i j)
    rw [← xBlock_get, (d.gemvH_one_gen hb _ _ _).1] at h0 ⊢
    simp only [Vec.get_add, xBlock_get, Vec.get_const] at h0 ⊢
    obtain ⟨h1, h2⟩ := fin_add h0
    obtain ⟨h3, h4⟩ := fin_add h2
    have n1 := (near_mulVec' (h.Q i) (hzx _) h3).add (near_mulVecT (h.S i) (hzu _) h4)
      (N := 2 * nx + 2 * nu + 1) le_rfl h2
    have n2 := (near_exact F.zero).add n1 (N := 4 * nx + 2 * nu + 2 * nc + 6) (by omega) h0
    refine (n2.congr (e' := (p.toQP.H *ᵥ rz) (xIdx i j)) ?_ rfl).mono le_rfl ?_
    · rw [p.H_x, sx, su]; ring
    · have := p.H_x_size rz i j
      rw [abs_zero]; linarith
  · have h0 := hf (uIdx i j)
    rw [← uBlock_get, (d.gemvH_one_gen hb _ _ _).2] at h0 ⊢
    simp only [Vec.get_add, uBlock_get, Vec.get_const] at h0 ⊢
    obtain ⟨h1, h2⟩ := fin_add h0
    obtain ⟨h3, h4⟩ := fin_add h2
    have n1 := (near_mulVec' (h.S i) (hzx _) h3).add (near_mulVec' (h.R i) (hzu _) h4)
      (N := 2 * nx + 2 * nu + 1) le_rfl h2
    have n2 := (near_exact F.zero).add n1 (N := 4 * nx + 2 * nu + 2 * nc + 6) (by omega) h0
    refine (n2.congr (e' := (p.toQP.H *ᵥ rz) (uIdx i j)) ?_ rfl).mono le_rfl ?_
    · rw [p.H_u, sx, su]; ring
    · have := p.H_u_size rz i j
      rw [abs_zero]; linarith

theorem mpc_G (h : F.ReadsMpc d p) (z rz) (hz : F.Reads z rz) (hf : F.FinVec (d.gemvG z 1 1 (Vec.const 0))) (i) :
    F.Near (4 * nx + 2 * nu + 2 * nc + 6) (d.gemvG z 1 1 (Vec.const 0) i) ((p.toQP.G *ᵥ rz) i)
      (∑ j, |p.toQP.G i j| * |rz j|) := by
  have hb := F.beqOk
  have hzx : ∀ i, F.Reads (xBlock z i) (fun j => rz (xIdx i j)) := fun i j => by rw [xBlock_get]; exact hz _
  have hzu : ∀ i, F.Reads (uBlock z i) (fun j => rz (uIdx i j)) := fun i j => by rw [uBlock_get]; exact hz _
  have sx : ∀ i, Ocp.states rz i = fun j => rz (xIdx i j) := fun i => by funext j; rw [states_eq]
  have su : ∀ i, Ocp.controls rz i = fun j => rz (uIdx i j) := fun i => by funext j; rw [controls_eq]
  revert i
  rw [forall_flat]
  intro i j
  have h0 := hf (flatIdx i j)
  rw [← colBlock_get] at h0 ⊢
  revert h0
  refine Fin.cases ?_ (fun i => ?_) i
  · rw [(d.gemvG_one_gen hb _ _).1]
    simp only [Vec.get_add, Vec.get_smul, colBlock_get, xBlock_get, Vec.get_const]
    intro h0
    have n2 := (near_exact F.zero).add (near_exact (hz (xIdx 0 j))).neg_one_mul
      (N := 4 * nx + 2 * nu + 2 * nc + 6) (by omega) h0
    refine (n2.congr (e' := (p.toQP.G *ᵥ rz) (flatIdx 0 j)) ?_ rfl).mono le_rfl ?_
    · rw [p.G_zero, sx]; ring
    · have := p.G_zero_size rz j
      rw [abs_zero]; linarith
  · rw [(d.gemvG_one_gen hb _ _).2 i]
    simp only [Vec.get_add, Vec.get_sub, colBlock_get, xBlock_get, Vec.get_const]
    intro h0
    obtain ⟨h1, h2⟩ := fin_sub h0
    obtain ⟨h3, h4⟩ := fin_add h1
    obtain ⟨h5, h6⟩ := fin_add h4
    have n2 := (near_mulVec' (h.A i) (hzx _) h5).add (near_mulVec' (h.B i) (hzu _) h6)
      (N := 2 * nx + 2 * nu + 1) le_rfl h4
    have n3 := (near_exact F.zero).add n2 (N := 2 * nx + 2 * nu + 2) (by omega) h1
    have n4 := n3.sub (near_exact (hz _)) (N := 4 * nx + 2 * nu + 2 * nc + 6) (by omega) h0
    refine (n4.congr (e' := (p.toQP.G *ᵥ rz) (flatIdx i.succ j)) ?_ rfl).mono le_rfl ?_
    · rw [p.G_succ, sx, su, sx]; ring
    · have := p.G_succ_size rz i j
      rw [abs_zero]; linarith

theorem mpcFeas (hx0 : 0 < nx) (h : F.ReadsMpc d p) : F.FeasOps p.toQP d.ops (fun _ => True)
    (4 * ((N + 1) * (nx + nu) + (N + 1) * nx + (N + 1) * nc) + 4) where
  sum l v hf := by
    obtain ⟨rl, rv, hl, hv, hn⟩ := mpcSum hx0 h l v hf
    refine ⟨rl, rv, hl, hv, fun i => (hn i).mono ?_ le_rfl⟩
    nlinarith
  value l v rl rv hl hv hf := by
    obtain ⟨h1, h2⟩ := fin_add hf
    have := (near_dot (mpc_axpyh h) hl h1).add (near_dot (mpc_axpyb h) hv h2)
      (N := 4 * ((N + 1) * (nx + nu) + (N + 1) * nx + (N + 1) * nc) + 4) (by omega) hf
    exact this.congr (add_comm _ _) (add_comm _ _)
  slope z rz hz hf := (near_dot (mpc_axpyf h) hz hf).mono (by omega) le_rfl
  H0 z hf := by
    have hb := F.beqOk
    have hf : F.FinVec (d.gemvH z 1 0 (Vec.const 0)) := hf
    have key : ∀ i : Fin (N + 1), F.Fin' ((d.Q i * xBlock z i) ⟨0, hx0⟩) ∧
        F.Fin' (((d.S i).transpose * uBlock z i) ⟨0, hx0⟩) := by
      intro i
      have h0 := hf (xIdx i ⟨0, hx0⟩)
      rw [d.gemvH_zero_gen hb, ← xBlock_get, (d.gemvH_one_gen hb _ _ _).1] at h0
      simp only [Vec.get_add] at h0
      exact fin_add (fin_add h0).2
    intro a
    rcases xuIdx_surj a with ⟨i, j, rfl⟩ | ⟨i, j, rfl⟩
    · have := fin_mulVec (key i).1 j
      rwa [xBlock_get] at this
    · have := fin_mulVec (key i).2 j
      rwa [uBlock_get] at this
  A z rz ws _ hz hf i := by
    have hf : F.FinVec (d.gemvA z 1 0 (Vec.const 0)) := hf
    show F.Near _ (d.gemvA z 1 0 ws.tv i) _ _
    rw [d.gemvA_zero_gen F.beqOk] at hf ⊢
    exact (mpc_A h z rz hz hf i).mono (by nlinarith) le_rfl
  G z rz ws _ hz hf i := by
    have hf : F.FinVec (d.gemvG z 1 0 (Vec.const 0)) := hf
    show F.Near _ (d.gemvG z 1 0 ws.tl i) _ _
    rw [d.gemvG_zero_gen F.beqOk] at hf ⊢
    exact (mpc_G h z rz hz hf i).mono (by nlinarith) le_rfl
  H z rz ws _ hz hf i := by
    have hf : F.FinVec (d.gemvH z 1 0 (Vec.const 0)) := hf
    show F.Near _ (d.gemvH z 1 0 ws.tz i) _ _
    rw [d.gemvH_zero_gen F.beqOk] at hf ⊢
    exact (mpc_H h z rz hz hf i).mono (by nlinarith) le_rfl

end

end Rounding
end Fbstab
