import Verif.Spec.Newton
import Verif.Proofs.Factor
import Verif.Proofs.DenseSem
import Verif.Proofs.QPMath

/-!
# The Newton system: uniqueness, and the dense solver solves it
-/

namespace Fbstab
open Matrix

/-! ## The slopes of the penalized Fischer-Burmeister function -/

theorem abs_le_hypot (a b : ℝ) : |a| ≤ √(a * a + b * b) := by
  refine Real.abs_le_sqrt ?_
  nlinarith [mul_self_nonneg b]

theorem hypot_pos {a b : ℝ} (h : ¬√(a * a + b * b) < 1e-13) : 0 < √(a * a + b * b) :=
  lt_of_lt_of_le (by norm_num) (not_lt.1 h)

theorem inv_sqrt_two_lt_one : 1 / √(2 : ℝ) < 1 := by
  rw [div_lt_one (Real.sqrt_pos.2 (by norm_num))]
  exact Real.lt_sqrt_of_sq_lt (by norm_num)

theorem pfbGradient_nonneg {alpha : ℝ} (h0 : 0 < alpha) (h1 : alpha < 1) (a b : ℝ) :
    0 ≤ (pfbGradient alpha a b).1 ∧ 0 ≤ (pfbGradient alpha a b).2 := by
  have h2 : (1 : ℝ) / √2.0 < 1 := by
    have := inv_sqrt_two_lt_one
    norm_num at this ⊢
    exact this
  unfold pfbGradient
  simp only [scalar_sqrt]
  split
  · exact ⟨mul_nonneg h0.le (by linarith), mul_nonneg h0.le (by linarith)⟩
  · rename_i hr
    have hp := hypot_pos hr
    have ha : a / √(a * a + b * b) ≤ 1 := (div_le_one hp).2 ((le_abs_self a).trans (abs_le_hypot a b))
    have hb : b / √(a * a + b * b) ≤ 1 := by
      rw [div_le_one hp, add_comm]
      exact (le_abs_self b).trans (abs_le_hypot b a)
    split
    · rename_i h
      have e1 := mul_nonneg h0.le (sub_nonneg.2 ha)
      have e2 := mul_nonneg h0.le (sub_nonneg.2 hb)
      have e3 := mul_nonneg (sub_nonneg.2 h1.le) h.1.le
      have e4 := mul_nonneg (sub_nonneg.2 h1.le) h.2.le
      exact ⟨add_nonneg e1 e4, add_nonneg e2 e3⟩
    · exact ⟨mul_nonneg h0.le (sub_nonneg.2 ha), mul_nonneg h0.le (sub_nonneg.2 hb)⟩

/-- The slopes do not vanish together. -/
theorem pfbGradient_pos {alpha : ℝ} (h0 : 0 < alpha) (h1 : alpha < 1) (a b : ℝ) :
    0 < (pfbGradient alpha a b).1 ∨ 0 < (pfbGradient alpha a b).2 := by
  have h2 : (1 : ℝ) / √2.0 < 1 := by
    have := inv_sqrt_two_lt_one
    norm_num at this ⊢
    exact this
  unfold pfbGradient
  simp only [scalar_sqrt]
  split
  · exact .inl (mul_pos h0 (by linarith))
  · rename_i hr
    have hp := hypot_pos hr
    have ha : a / √(a * a + b * b) ≤ 1 := (div_le_one hp).2 ((le_abs_self a).trans (abs_le_hypot a b))
    split
    · rename_i h
      have e1 := mul_nonneg h0.le (sub_nonneg.2 ha)
      have e4 := mul_pos (sub_pos.2 h1) h.2
      exact .inl (add_pos_of_nonneg_of_pos e1 e4)
    · by_cases hlt : a / √(a * a + b * b) < 1
      · exact .inl (mul_pos h0 (sub_pos.2 hlt))
      · right
        have hae : a = √(a * a + b * b) := by
          have := le_antisymm ha (not_lt.1 hlt)
          rwa [div_eq_one_iff_eq hp.ne'] at this
        have hb : b = 0 := by
          have h3 : √(a * a + b * b) * √(a * a + b * b) = a * a + b * b :=
            Real.mul_self_sqrt (by nlinarith [mul_self_nonneg a, mul_self_nonneg b])
          rw [← hae] at h3
          have : b * b = 0 := by linarith
          exact mul_self_eq_zero.1 this
        refine mul_pos h0 ?_
        rw [hb, zero_div]
        norm_num

theorem pfbGamma_nonneg {alpha : ℝ} (h0 : 0 < alpha) (h1 : alpha < 1) (sigma : ℝ) {nv : Nat}
    (y v vbar : Vec ℝ nv) (i : Fin nv) : 0 ≤ pfbGamma alpha sigma y v vbar i :=
  (pfbGradient_nonneg h0 h1 _ _).1

theorem pfbMu_pos {alpha : ℝ} (h0 : 0 < alpha) (h1 : alpha < 1) {sigma : ℝ} (hs : 0 < sigma)
    {nv : Nat} (y v vbar : Vec ℝ nv) (i : Fin nv) : 0 < pfbMu alpha sigma y v vbar i := by
  have hn := pfbGradient_nonneg h0 h1 (y i + sigma * (v i - vbar i)) (v i)
  rcases pfbGradient_pos h0 h1 (y i + sigma * (v i - vbar i)) (v i) with h | h
  · exact add_pos_of_nonneg_of_pos hn.2 (mul_pos hs h)
  · exact add_pos_of_pos_of_nonneg h (mul_nonneg hs.le hn.1)

/-! ## Uniqueness -/

namespace QP
variable {nz nl nv : Nat} {q : QP nz nl nv}

theorem NewtonSystem.sub {sigma : ℝ} {g1 g2 : Fin nv → ℝ} {rz rl rv rz' rl' rv' dz dl dv dz' dl' dv'}
    (h : q.NewtonSystem sigma g1 g2 rz rl rv dz dl dv)
    (h' : q.NewtonSystem sigma g1 g2 rz' rl' rv' dz' dl' dv') :
    q.NewtonSystem sigma g1 g2 (rz - rz') (rl - rl') (rv - rv') (dz - dz') (dl - dl') (dv - dv') := by
  refine ⟨?_, ?_, fun i => ?_⟩
  · rw [← h.grad, ← h'.grad, mulVec_sub, mulVec_sub, mulVec_sub, smul_sub]
    abel
  · rw [← h.eq, ← h'.eq, mulVec_sub, smul_sub]
    abel
  · simp only [mulVec_sub, Pi.sub_apply]
    rw [← h.compl, ← h'.compl]
    ring

/-- The energy of a solution of the homogeneous system. -/
theorem NewtonSystem.zero (hc : q.Convex) {sigma : ℝ} (hs : 0 < sigma) {g1 g2 : Fin nv → ℝ}
    (h1 : ∀ i, 0 ≤ g1 i) (h2 : ∀ i, 0 < g2 i + sigma * g1 i) {dz dl dv}
    (h : q.NewtonSystem sigma g1 g2 0 0 0 dz dl dv) : dz = 0 ∧ dl = 0 ∧ dv = 0 := by
  have hdv : ∀ i, dv i = g1 i / (g2 i + sigma * g1 i) * (q.A *ᵥ dz) i := by
    intro i
    have := h.compl i
    have hm := (h2 i).ne'
    rw [div_mul_eq_mul_div, eq_div_iff hm]
    simp only [Pi.zero_apply] at this
    linarith
  have hadv : 0 ≤ (q.A *ᵥ dz) ⬝ᵥ dv := by
    refine Finset.sum_nonneg fun i _ => ?_
    rw [hdv i]
    have : 0 ≤ g1 i / (g2 i + sigma * g1 i) := div_nonneg (h1 i) (h2 i).le
    nlinarith [mul_nonneg this (mul_self_nonneg ((q.A *ᵥ dz) i))]
  have hG : q.G *ᵥ dz = sigma • dl := by
    have := h.eq
    rw [neg_add_eq_zero] at this
    exact this
  have hg := congrArg (fun w => w ⬝ᵥ dz) h.grad
  simp only [add_dotProduct, zero_dotProduct, smul_dotProduct, smul_eq_mul, transpose_dot] at hg
  rw [hG, dotProduct_smul, smul_eq_mul, dotProduct_comm (q.H *ᵥ dz), dotProduct_comm dv] at hg
  have hn := hc.nonneg dz
  have hzz : 0 ≤ dz ⬝ᵥ dz := Finset.sum_nonneg fun i _ => mul_self_nonneg _
  have hll : 0 ≤ dl ⬝ᵥ dl := Finset.sum_nonneg fun i _ => mul_self_nonneg _
  have ez : dz ⬝ᵥ dz = 0 := by
    by_contra hne
    have hp := mul_pos hs (lt_of_le_of_ne hzz (Ne.symm hne))
    have := mul_nonneg hs.le hll
    linarith
  have el : dl ⬝ᵥ dl = 0 := by
    by_contra hne
    have hp := mul_pos hs (lt_of_le_of_ne hll (Ne.symm hne))
    have := mul_nonneg hs.le hzz
    linarith
  have ez' : dz = 0 := dot_self_eq_zero.1 ez
  refine ⟨ez', dot_self_eq_zero.1 el, ?_⟩
  funext i
  rw [hdv i, ez', mulVec_zero, Pi.zero_apply, mul_zero]

theorem NewtonSystem.unique (hc : q.Convex) {sigma : ℝ} (hs : 0 < sigma) {g1 g2 : Fin nv → ℝ}
    (h1 : ∀ i, 0 ≤ g1 i) (h2 : ∀ i, 0 < g2 i + sigma * g1 i) {rz rl rv dz dl dv dz' dl' dv'}
    (h : q.NewtonSystem sigma g1 g2 rz rl rv dz dl dv)
    (h' : q.NewtonSystem sigma g1 g2 rz rl rv dz' dl' dv') : dz = dz' ∧ dl = dl' ∧ dv = dv' := by
  have := h.sub h'
  rw [sub_self, sub_self, sub_self] at this
  obtain ⟨a, b, c⟩ := this.zero hc hs h1 h2
  exact ⟨sub_eq_zero.1 a, sub_eq_zero.1 b, sub_eq_zero.1 c⟩

end QP

/-! ## The dense solver -/

section dense
variable {nz nl nv : Nat}

theorem castAdd_le {i j : Fin nz} : (Fin.castAdd nl j ≤ Fin.castAdd nl i) ↔ j ≤ i := by
  rw [Fin.le_def, Fin.le_def]; rfl

theorem natAdd_le {i j : Fin nl} : (Fin.natAdd nz j ≤ Fin.natAdd nz i) ↔ j ≤ i := by
  rw [Fin.le_def, Fin.le_def, Fin.val_natAdd, Fin.val_natAdd]; omega

theorem castAdd_le_natAdd (i : Fin nl) (j : Fin nz) : Fin.castAdd nl j ≤ Fin.natAdd nz i := by
  rw [Fin.le_def, Fin.val_natAdd, Fin.val_castAdd]; omega

theorem symOf_assignK_mulVec (E : Mat ℝ nz nz) (hE : E.fn.IsSymm) (G : Mat ℝ nl nz) (sigma : ℝ)
    (o : Mat ℝ (nz + nl) (nz + nl)) (z : Fin nz → ℝ) (l : Fin nl → ℝ) :
    symOf (DenseWs.assignK E G sigma o) *ᵥ Fin.append z l =
      Fin.append (E.fn *ᵥ z + G.fnᵀ *ᵥ l) (G.fn *ᵥ z - sigma • l) := by
  have e1 : ∀ i j, symOf (DenseWs.assignK E G sigma o) (Fin.castAdd nl i) (Fin.castAdd nl j) = E i j := by
    intro i j
    have h : ∀ i j, DenseWs.assignK E G sigma o (Fin.castAdd nl i) (Fin.castAdd nl j) = E i j := by
      intro i j; simp [DenseWs.assignK]
    by_cases hij : j ≤ i
    · rw [symOf_le _ (castAdd_le.2 hij), h]
    · rw [symOf_comm, symOf_le _ (castAdd_le.2 (not_le.1 hij).le), h]
      exact hE.apply i j
  have e3 : ∀ i j, symOf (DenseWs.assignK E G sigma o) (Fin.natAdd nz i) (Fin.castAdd nl j) = G i j := by
    intro i j
    rw [symOf_le _ (castAdd_le_natAdd i j)]
    simp [DenseWs.assignK]
  have e2 : ∀ i j, symOf (DenseWs.assignK E G sigma o) (Fin.castAdd nl i) (Fin.natAdd nz j) = G j i := by
    intro i j
    rw [symOf_comm, e3]
  have e4 : ∀ i j, symOf (DenseWs.assignK E G sigma o) (Fin.natAdd nz i) (Fin.natAdd nz j) =
      if i = j then -sigma else 0 := by
    intro i j
    have h : ∀ i j, DenseWs.assignK E G sigma o (Fin.natAdd nz i) (Fin.natAdd nz j) =
        if i = j then -sigma else 0 := by
      intro i j
      simp [DenseWs.assignK]
    by_cases hij : j ≤ i
    · rw [symOf_le _ (natAdd_le.2 hij), h]
    · rw [symOf_comm, symOf_le _ (natAdd_le.2 (not_le.1 hij).le), h]
      simp [eq_comm]
  funext i
  refine Fin.addCases (fun i => ?_) (fun i => ?_) i
  · rw [Fin.append_left]
    simp only [mulVec, dotProduct, Fin.sum_univ_add, e1, e2, Fin.append_left, Fin.append_right,
      Pi.add_apply, transpose_apply, Mat.fn_apply]
  · rw [Fin.append_right]
    simp only [mulVec, dotProduct, Fin.sum_univ_add, e3, e4, Fin.append_left, Fin.append_right,
      Pi.sub_apply, Mat.fn_apply, Pi.smul_apply, smul_eq_mul, ite_mul, zero_mul,
      Finset.sum_ite_eq, Finset.mem_univ, if_true]
    ring

theorem append_cases (w : Fin (nz + nl) → ℝ) : ∃ z l, w = Fin.append z l :=
  ⟨fun i => w (Fin.castAdd nl i), fun i => w (Fin.natAdd nz i), by
    funext i; refine Fin.addCases (fun i => ?_) (fun i => ?_) i <;> simp⟩

theorem assignK_quasiDefinite (E : Mat ℝ nz nz) (hE : E.fn.IsSymm) (G : Mat ℝ nl nz) {sigma : ℝ}
    (hpos : ∀ z, sigma * (z ⬝ᵥ z) ≤ z ⬝ᵥ E.fn *ᵥ z) (o : Mat ℝ (nz + nl) (nz + nl)) :
    QuasiDefinite sigma (Fin.append (fun _ => 1) (fun _ => -1))
      (symOf (DenseWs.assignK E G sigma o)) := by
  refine ⟨fun i => ?_, fun w => ?_⟩
  · refine Fin.addCases (fun i => ?_) (fun i => ?_) i <;> simp
  · obtain ⟨z, l, rfl⟩ := append_cases w
    rw [symOf_assignK_mulVec E hE, Fin.sum_univ_add]
    simp only [Fin.append_left, Fin.append_right, one_mul, Pi.add_apply, Pi.sub_apply,
      Pi.smul_apply, smul_eq_mul]
    have e0 : Fin.append z l ⬝ᵥ Fin.append z l = z ⬝ᵥ z + l ⬝ᵥ l := by
      simp [dotProduct, Fin.sum_univ_add]
    have e1 : ∑ i, z i * ((E.fn *ᵥ z) i + (G.fnᵀ *ᵥ l) i) = z ⬝ᵥ E.fn *ᵥ z + z ⬝ᵥ G.fnᵀ *ᵥ l := by
      simp only [mul_add, Finset.sum_add_distrib]; rfl
    have e2 : ∑ i, -1 * (l i * ((G.fn *ᵥ z) i - sigma * l i)) =
        sigma * (l ⬝ᵥ l) - l ⬝ᵥ G.fn *ᵥ z := by
      simp only [dotProduct, Finset.mul_sum, ← Finset.sum_sub_distrib]
      exact Finset.sum_congr rfl fun i _ => by ring
    have e3 : z ⬝ᵥ G.fnᵀ *ᵥ l = l ⬝ᵥ G.fn *ᵥ z := by
      rw [dotProduct_comm, QP.transpose_dot]
    rw [e0, e1, e2, e3]
    linarith [hpos z]

/-- The slopes used by the solver at a point. -/
noncomputable def slopes (alpha sigma : ℝ) (x xbar : Point ℝ nz nl nv) (i : Fin nv) : ℝ × ℝ :=
  pfbGradient alpha (x.y i + sigma * (x.v i - xbar.v i)) (x.v i)

/-- The matrix of the dense Newton system is quasi-definite. -/
theorem denseK_quasiDefinite (d : DenseData ℝ nz nl nv) (hc : (QP.ofDense d).Convex) {alpha sigma : ℝ}
    (h0 : 0 < alpha) (h1 : alpha < 1) (hs0 : 0 < sigma) (x xbar : Point ℝ nz nl nv) :
    QuasiDefinite sigma (Fin.append (fun _ => 1) (fun _ => -1)) (symOf (denseK d alpha x xbar sigma)) := by
  set Gamma : Vec ℝ nv := Vec.ofFn fun i =>
    pfbGamma alpha sigma x.y x.v xbar.v i / pfbMu alpha sigma x.y x.v xbar.v i with hGamma
  have hG0 : ∀ i, 0 ≤ Gamma i := fun i => by
    rw [hGamma, Vec.get_ofFn]
    exact div_nonneg (pfbGamma_nonneg h0 h1 _ _ _ _ _) (pfbMu_pos h0 h1 hs0 _ _ _ _).le
  set E : Mat ℝ nz nz := d.H + sigma * (Mat.identity : Mat ℝ nz nz) +
    d.A.transpose * Mat.diagMul Gamma d.A with hE
  have hEfn : E.fn = d.H.fn + sigma • (1 : Matrix (Fin nz) (Fin nz) ℝ) +
      d.A.fnᵀ * (diagonal Gamma.fn * d.A.fn) := by
    simp [hE]
  have hEv : ∀ z, E.fn *ᵥ z = d.H.fn *ᵥ z + sigma • z +
      d.A.fnᵀ *ᵥ (fun i => Gamma i * (d.A.fn *ᵥ z) i) := by
    intro z
    rw [hEfn, add_mulVec, add_mulVec, smul_mulVec, one_mulVec, ← mulVec_mulVec, ← mulVec_mulVec]
    congr 2
    funext i
    rw [mulVec_diagonal]
    rfl
  have hsymm : E.fn.IsSymm := by
    rw [hEfn]
    have hH : d.H.fn.IsSymm := hc.symm
    unfold Matrix.IsSymm
    rw [transpose_add, transpose_add, transpose_smul, transpose_one, hH.eq, transpose_mul,
      transpose_mul, transpose_transpose, diagonal_transpose, Matrix.mul_assoc]
  have hpos : ∀ z, sigma * (z ⬝ᵥ z) ≤ z ⬝ᵥ E.fn *ᵥ z := by
    intro z
    rw [hEv, dotProduct_add, dotProduct_add, dotProduct_smul, smul_eq_mul]
    have hn : 0 ≤ z ⬝ᵥ d.H.fn *ᵥ z := hc.nonneg z
    have ha : 0 ≤ z ⬝ᵥ d.A.fnᵀ *ᵥ (fun i => Gamma i * (d.A.fn *ᵥ z) i) := by
      rw [dotProduct_comm, QP.transpose_dot]
      refine Finset.sum_nonneg fun i _ => ?_
      have := mul_nonneg (hG0 i) (mul_self_nonneg ((d.A.fn *ᵥ z) i))
      linarith
    linarith
  exact assignK_quasiDefinite E hsymm d.G hpos _

theorem dense_newton (d : DenseData ℝ nz nl nv) (hc : (QP.ofDense d).Convex) {alpha sigma : ℝ}
    (h0 : 0 < alpha) (h1 : alpha < 1) (hs : 2.2250738585072014e-308 < sigma)
    (x xbar : Point ℝ nz nl nv) :
    denseFactor d alpha x xbar sigma = .ok (some (denseStep d alpha x xbar sigma)) ∧
    ∀ r, (QP.ofDense d).NewtonSystem sigma (fun i => (slopes alpha sigma x xbar i).1)
      (fun i => (slopes alpha sigma x xbar i).2) r.z.fn r.l.fn r.v.fn
      (denseStep d alpha x xbar sigma r).z.fn (denseStep d alpha x xbar sigma r).l.fn
      (denseStep d alpha x xbar sigma r).v.fn ∧
      (denseStep d alpha x xbar sigma r).y.fn =
        d.b.fn - d.A.fn *ᵥ (denseStep d alpha x xbar sigma r).z.fn := by
  have hs0 : 0 < sigma := tiny_pos.trans hs
  set Gamma : Vec ℝ nv := Vec.ofFn fun i =>
    pfbGamma alpha sigma x.y x.v xbar.v i / pfbMu alpha sigma x.y x.v xbar.v i with hGamma
  set E : Mat ℝ nz nz := d.H + sigma * (Mat.identity : Mat ℝ nz nz) +
    d.A.transpose * Mat.diagMul Gamma d.A with hE
  have hEfn : E.fn = d.H.fn + sigma • (1 : Matrix (Fin nz) (Fin nz) ℝ) +
      d.A.fnᵀ * (diagonal Gamma.fn * d.A.fn) := by
    simp [hE]
  have hEv : ∀ z, E.fn *ᵥ z = d.H.fn *ᵥ z + sigma • z +
      d.A.fnᵀ *ᵥ (fun i => Gamma i * (d.A.fn *ᵥ z) i) := by
    intro z
    rw [hEfn, add_mulVec, add_mulVec, smul_mulVec, one_mulVec, ← mulVec_mulVec, ← mulVec_mulVec]
    congr 2
    funext i
    rw [mulVec_diagonal]
    rfl
  have hsymm : E.fn.IsSymm := by
    rw [hEfn]
    have hH : d.H.fn.IsSymm := hc.symm
    unfold Matrix.IsSymm
    rw [transpose_add, transpose_add, transpose_smul, transpose_one, hH.eq, transpose_mul,
      transpose_mul, transpose_transpose, diagonal_transpose, Matrix.mul_assoc]
  have hK : denseK d alpha x xbar sigma = DenseWs.assignK E d.G sigma (Mat.ofFn fun _ _ => 0) := rfl
  obtain ⟨hok, hsol⟩ := ldlt_spec hs (denseK d alpha x xbar sigma)
    (denseK_quasiDefinite d hc h0 h1 hs0 x xbar)
  refine ⟨?_, fun r => ?_⟩
  · unfold denseFactor
    rw [if_neg (not_le.2 hs0), if_pos hok]
  · unfold denseStep
    dsimp only
    set mus : Vec ℝ nv := Vec.ofFn fun i => pfbMu alpha sigma x.y x.v xbar.v i with hmus
    set gamma : Vec ℝ nv := Vec.ofFn fun i => pfbGamma alpha sigma x.y x.v xbar.v i with hgamma
    have hmu : ∀ i, 0 < mus i := fun i => by
      rw [hmus, Vec.get_ofFn]; exact pfbMu_pos h0 h1 hs0 _ _ _ _
    have hGam : ∀ i, Gamma i = gamma i / mus i := fun i => by
      rw [hGamma, hmus, hgamma, Vec.get_ofFn, Vec.get_ofFn, Vec.get_ofFn]
    have h := hsol (Vec.append (r.z - d.A.transpose * r.v.cwiseQuotient mus) (-r.l))
    generalize (ldltCompute (denseK d alpha x xbar sigma)).solve
      (Vec.append (r.z - d.A.transpose * r.v.cwiseQuotient mus) (-r.l)) = s at h ⊢
    have hsapp : s.fn = Fin.append s.head.fn s.tail.fn := by
      funext i
      refine Fin.addCases (fun i => ?_) (fun i => ?_) i
      · rw [Fin.append_left]; simp [Vec.head]
      · rw [Fin.append_right]; simp [Vec.tail]
    rw [hsapp, hK, symOf_assignK_mulVec E hsymm] at h
    have hz : E.fn *ᵥ s.head.fn + d.G.fnᵀ *ᵥ s.tail.fn =
        r.z.fn - d.A.fnᵀ *ᵥ (fun i => r.v i / mus i) := by
      funext i
      have := congrFun h (Fin.castAdd nl i)
      rw [Fin.append_left] at this
      rw [this]
      simp [Vec.append, Vec.cwiseQuotient, mulVec, dotProduct]
    have hl : d.G.fn *ᵥ s.head.fn - sigma • s.tail.fn = -r.l.fn := by
      funext i
      have := congrFun h (Fin.natAdd nz i)
      rw [Fin.append_right] at this
      rw [this]
      simp [Vec.append]
    refine ⟨⟨?_, ?_, ?_⟩, ?_⟩
    · show d.H.fn *ᵥ s.head.fn + d.G.fnᵀ *ᵥ s.tail.fn + d.A.fnᵀ *ᵥ _ + sigma • s.head.fn = r.z.fn
      rw [hEv] at hz
      have hv : ((Vec.cwiseProduct gamma (d.A * s.head) + r.v).cwiseQuotient mus).fn =
          (fun i => Gamma i * (d.A.fn *ᵥ s.head.fn) i) + (fun i => r.v i / mus i) := by
        funext i
        rw [Pi.add_apply, hGam]
        simp only [Vec.fn_apply, Vec.cwiseQuotient, Vec.get_ofFn, Vec.get_add, Vec.cwiseProduct]
        have : (d.A * s.head) i = (d.A.fn *ᵥ s.head.fn) i := by
          rw [← Mat.fn_mulVec]; rfl
        rw [this, add_div]
        ring
      rw [hv, mulVec_add]
      have := hz
      rw [eq_sub_iff_add_eq] at this
      rw [← this]
      abel
    · show -(d.G.fn *ᵥ s.head.fn) + sigma • s.tail.fn = r.l.fn
      rw [← neg_inj, ← hl]
      abel
    · intro i
      show (slopes alpha sigma x xbar i).1 * (-(d.A.fn *ᵥ s.head.fn) i + sigma *
        ((Vec.cwiseProduct gamma (d.A * s.head) + r.v).cwiseQuotient mus) i) +
        (slopes alpha sigma x xbar i).2 *
          ((Vec.cwiseProduct gamma (d.A * s.head) + r.v).cwiseQuotient mus) i = r.v i
      have h1 : (slopes alpha sigma x xbar i).1 = gamma i := by rw [hgamma, Vec.get_ofFn]; rfl
      have h2 : mus i = (slopes alpha sigma x xbar i).2 + sigma * gamma i := by
        rw [hmus, hgamma, Vec.get_ofFn, Vec.get_ofFn]; rfl
      have : (d.A * s.head) i = (d.A.fn *ᵥ s.head.fn) i := by
        rw [← Mat.fn_mulVec]; rfl
      simp only [Vec.cwiseQuotient, Vec.get_ofFn, Vec.get_add, Vec.cwiseProduct]
      rw [this, h1]
      have h3 := hmu i
      have h4 : (slopes alpha sigma x xbar i).2 = mus i - sigma * gamma i := by rw [h2]; ring
      rw [h4]
      field_simp
      ring
    · simp

end dense
end Fbstab
