import Verif.Proofs.UpCore
import Verif.Proofs.Newton
import Verif.Proofs.ApiSem

/-!
# The dense solver commutes with the embedding of the reals
-/

namespace Fbstab

theorem up_pfbGradient (alpha a b : ℝ) :
    pfbGradient (up alpha) (up a) (up b) =
      (up (pfbGradient alpha a b).1, up (pfbGradient alpha a b).2) := by
  have h : 0 ≤ a * a + b * b := add_nonneg (mul_self_nonneg _) (mul_self_nonneg _)
  have h2 : (0 : ℝ) ≤ 2.0 := by norm_num
  have h3 : √(2.0 : ℝ) ≠ 0 := Real.sqrt_ne_zero'.mpr (by norm_num)
  simp only [pfbGradient, up_mul, up_add, up_sqrt h, up_ofScientific, up_sqrt h2, up_one,
    up_div _ h3, up_sub, up_lt, up_zero, scalar_sqrt]
  split
  · rfl
  · rename_i hr
    have hp := (hypot_pos hr).ne'
    simp only [up_div _ hp, up_sub, up_mul, up_add]
    split <;> rfl

section
variable {nv : Nat} (alpha sigma : ℝ) (y v vbar : Vec ℝ nv) (i : Fin nv)

theorem up_pfbGamma : pfbGamma (up alpha) (up sigma) y.up v.up vbar.up i =
    up (pfbGamma alpha sigma y v vbar i) := by
  simp only [pfbGamma, Vec.up_get, up_sub, up_mul, up_add, up_pfbGradient]

theorem up_pfbMu : pfbMu (up alpha) (up sigma) y.up v.up vbar.up i =
    up (pfbMu alpha sigma y v vbar i) := by
  simp only [pfbMu, Vec.up_get, up_sub, up_mul, up_add, up_pfbGradient]

end

noncomputable def DenseData.up {nz nl nv : Nat} (d : DenseData ℝ nz nl nv) : DenseData XReal nz nl nv :=
  ⟨d.H.up, d.f.up, d.G.up, d.h.up, d.A.up, d.b.up⟩

section
variable {nz nl nv : Nat} (d : DenseData ℝ nz nl nv)

theorem DenseData.up_ops : UpOps d.ops d.up.ops where
  gemvH x a b y := by
    simp only [ops, DenseData.gemvH, DenseData.up, Mat.up_smul, Mat.up_mulVec, Vec.up_smul, Vec.up_add]
  gemvA x a b y := by
    simp only [ops, DenseData.gemvA, DenseData.up, Mat.up_smul, Mat.up_mulVec, Vec.up_smul, Vec.up_add]
  gemvG x a b y := by
    simp only [ops, DenseData.gemvG, DenseData.up, Mat.up_smul, Mat.up_mulVec, Vec.up_smul, Vec.up_add]
  gemvAT x a b y := by
    simp only [ops, DenseData.gemvAT, DenseData.up, Mat.up_transpose, Mat.up_smul, Mat.up_mulVec,
      Vec.up_smul, Vec.up_add]
  gemvGT x a b y := by
    simp only [ops, DenseData.gemvGT, DenseData.up, Mat.up_transpose, Mat.up_smul, Mat.up_mulVec,
      Vec.up_smul, Vec.up_add]
  axpyf a y := by simp only [ops, DenseData.axpyf, DenseData.up, Vec.up_smul, Vec.up_add]
  axpyh a y := by simp only [ops, DenseData.axpyh, DenseData.up, Vec.up_smul, Vec.up_add]
  axpyb a y := by simp only [ops, DenseData.axpyb, DenseData.up, Vec.up_smul, Vec.up_add]
  forcingNorm := by
    simp only [ops, DenseData.forcingNorm, DenseData.up, Vec.up_squaredNorm, up_add]
    exact up_sqrt (add_nonneg (add_nonneg (Vec.squaredNorm_nonneg _) (Vec.squaredNorm_nonneg _))
      (Vec.squaredNorm_nonneg _))

theorem up_assignK (E : Mat ℝ nz nz) (G : Mat ℝ nl nz) (sigma : ℝ) (old : Mat ℝ (nz + nl) (nz + nl)) :
    DenseWs.assignK E.up G.up (up sigma) old.up = (DenseWs.assignK E G sigma old).up := by
  ext i j
  simp only [DenseWs.assignK, Mat.get_ofFn, Mat.up_get, Mat.up_identity, up_neg, Mat.up_smul]
  refine Fin.addCases (fun i => ?_) (fun i => ?_) i <;>
    refine Fin.addCases (fun j => ?_) (fun j => ?_) j <;> simp

section
variable {alpha sigma : ℝ} (h0 : 0 < alpha) (h1 : alpha < 1) (hs : 0 < sigma)
  (x xbar : Point ℝ nz nl nv)
include h0 h1 hs

theorem up_denseK : denseK d.up (up alpha) x.up xbar.up (up sigma) = (denseK d alpha x xbar sigma).up := by
  have hm := fun i => (pfbMu_pos h0 h1 hs x.y x.v xbar.v i).ne'
  have e : (Mat.ofFn fun _ _ => up 0 : Mat XReal (nz + nl) (nz + nl)) = (Mat.ofFn fun _ _ => (0 : ℝ)).up :=
    Mat.ofFn_up _
  simp only [denseK, Point.up, up_pfbGamma, up_pfbMu, up_div _ (hm _), Vec.ofFn_up, DenseData.up,
    up_zero, e, Mat.up_identity, Mat.up_smul, Mat.up_add, Mat.up_transpose, Mat.up_diagMul, Mat.up_mul,
    up_assignK]

theorem up_denseStep (r : Resid ℝ nz nl nv) :
    denseStep d.up (up alpha) x.up xbar.up (up sigma) r.up = (denseStep d alpha x xbar sigma r).up := by
  have hm : ∀ i, (Vec.ofFn fun i => pfbMu alpha sigma x.y x.v xbar.v i : Vec ℝ nv) i ≠ 0 := fun i => by
    rw [Vec.get_ofFn]; exact (pfbMu_pos h0 h1 hs x.y x.v xbar.v i).ne'
  simp only [denseStep, up_denseK d h0 h1 hs]
  simp only [Point.up, Resid.up, up_pfbGamma, up_pfbMu, Vec.ofFn_up, DenseData.up, Mat.up_transpose,
    Vec.up_cwiseQuotient _ hm, Mat.up_mulVec, Vec.up_sub, Vec.up_neg, Vec.up_append, up_ldltCompute,
    up_ldltSolve, Vec.up_head, Vec.up_tail, Vec.up_cwiseProduct, Vec.up_add]

theorem up_denseFactor : match denseFactor d alpha x xbar sigma with
    | .error e => denseFactor d.up (up alpha) x.up xbar.up (up sigma) = .error e
    | .ok none => denseFactor d.up (up alpha) x.up xbar.up (up sigma) = .ok none
    | .ok (some g) => ∃ g', denseFactor d.up (up alpha) x.up xbar.up (up sigma) = .ok (some g') ∧
      ∀ r, g' r.up = (g r).up := by
  simp only [denseFactor, up_zero, up_le, if_neg (not_le.mpr hs), up_denseK d h0 h1 hs, up_ldltCompute]
  have e : (Ldlt.up (ldltCompute (denseK d alpha x xbar sigma))).success =
    (ldltCompute (denseK d alpha x xbar sigma)).success := rfl
  rw [e]
  cases (ldltCompute (denseK d alpha x xbar sigma)).success with
  | false => rfl
  | true => exact ⟨_, rfl, fun r => up_denseStep d h0 h1 hs x xbar r⟩

end
end

/-! ## Run-time sized objects -/

theorem DVec.up_size (x : DVec ℝ) : x.up.size = x.size := by simp [DVec.up, DVec.size]

theorem DVec.up_toVec (n : Nat) (x : DVec ℝ) : x.up.toVec n = (x.toVec n).up := by
  ext i
  simp only [DVec.toVec, Vec.get_ofFn, Vec.up_get, DVec.up, up_zero]
  simp only [Array.getD_eq_getD_getElem?, Array.getElem?_map]
  cases x.data[i.1]? <;> rfl

theorem DVec.up_ofVec {n : Nat} (x : Vec ℝ n) : DVec.ofVec x.up = (DVec.ofVec x).up := by
  simp only [DVec.ofVec, DVec.up, DVec.mk.injEq]
  apply Array.ext
  · simp
  · intro i h1 h2
    have := Vec.up_get x ⟨i, by simpa using h1⟩
    simpa [Vec.get] using this

theorem DMat.up_toMat (r c : Nat) (x : DMat ℝ) : x.up.toMat r c = (x.toMat r c).up := by
  ext i j
  simp only [DMat.toMat, Mat.get_ofFn, Mat.up_get, DMat.up, up_zero]
  simp only [Array.getD_eq_getD_getElem?, Array.getElem?_map]
  cases x.data[j.1 * x.rows + i.1]? <;> rfl

theorem DenseProblem.up_toData (nz nl nv : Nat) (p : DenseProblem ℝ) :
    p.up.toData nz nl nv = (p.toData nz nl nv).up := by
  simp only [DenseProblem.toData, DenseProblem.up, DenseData.up, DMat.up_toMat, DVec.up_toVec]

theorem DenseProblem.up_validate (p : DenseProblem ℝ) : p.up.validate = p.validate := by
  simp only [DenseProblem.validate, DenseProblem.up, DVec.up_size]
  rfl

theorem CallerVar.up_ofPoint {nz nl nv : Nat} (b : Bool) (p : Point ℝ nz nl nv) :
    CallerVar.ofPoint b p.up = (CallerVar.ofPoint b p).up := by
  simp only [CallerVar.ofPoint, CallerVar.up, Point.up, DVec.up_ofVec]

end Fbstab
