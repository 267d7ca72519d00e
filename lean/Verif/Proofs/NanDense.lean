import Verif.Proofs.NanApi
import Verif.Proofs.UpDense

/-!
# NaN in the dense Newton step
-/

namespace Fbstab
variable {nz nl nv : Nat}

theorem XReal.pfb_nan (a b alpha : XReal) (h : a = .nan ∨ b = .nan) : pfb a b alpha = .nan := by
  rcases h with rfl | rfl <;> simp [pfb]

/-- NaN in the gradient, in the defect or in `y` is NaN in the inner residual. -/
theorem Core.innerRes_nan {E : Core.Env XReal nz nl nv} {x xbar : Point XReal nz nl nv} {sigma : XReal}
    (h : (gradLagrangian E.ops x.z x.l x.v).HasNaN ∨ (eqDefect E.ops x.z).HasNaN ∨ x.y.HasNaN) :
    (E.innerRes x xbar sigma).z.HasNaN ∨ (E.innerRes x xbar sigma).l.HasNaN ∨
      (E.innerRes x xbar sigma).v.HasNaN := by
  rcases h with ⟨i, h⟩ | ⟨i, h⟩ | ⟨i, h⟩
  · exact .inl ⟨i, by simp [Core.Env.innerRes, Core.mkResid, h]⟩
  · exact .inr (.inl ⟨i, by simp [Core.Env.innerRes, Core.mkResid, h]⟩)
  · exact .inr (.inr ⟨i, by simp [Core.Env.innerRes, Core.mkResid, h, XReal.pfb_nan]⟩)

theorem Core.negate_nan {r : Resid XReal nz nl nv} (h : r.z.HasNaN ∨ r.l.HasNaN ∨ r.v.HasNaN) :
    (Core.Resid.negate r).z.HasNaN ∨ (Core.Resid.negate r).l.HasNaN ∨ (Core.Resid.negate r).v.HasNaN := by
  rcases h with ⟨i, h⟩ | ⟨i, h⟩ | ⟨i, h⟩
  · exact .inl ⟨i, by simp [Core.Resid.negate, h]⟩
  · exact .inr (.inl ⟨i, by simp [Core.Resid.negate, h]⟩)
  · exact .inr (.inr ⟨i, by simp [Core.Resid.negate, h]⟩)

/-- NaN in the complementarity rows reaches `dv`. -/
theorem denseStep_nan_v {d : DenseData XReal nz nl nv} {alpha sigma : XReal}
    {x xbar : Point XReal nz nl nv} {r : Resid XReal nz nl nv} (h : r.v.HasNaN) :
    (denseStep d alpha x xbar sigma r).HasNaN := by
  obtain ⟨i, h⟩ := h
  exact .inr (.inr ⟨i, by simp [denseStep, Vec.cwiseQuotient, h]⟩)

theorem scatter_spec' {K : Type} {n : Nat} (p : Vec (Fin n) n) (hp : Function.Injective fun i => p i)
    (x r : Vec K n) (i : Fin n) : (forFin n (fun i out => out.set (p i) (x i)) r) (p i) = x i := by
  have := forFin_induct (n := n)
    (P := fun k (s : Vec K n) => ∀ i : Fin n, i.1 < k → s (p i) = x i)
    (f := fun i out => out.set (p i) (x i)) (s := r) (by simp) (by
      intro k s hs i hi
      rw [Vec.get_set]
      by_cases h : i = k
      · subst h; simp
      · have : p i ≠ p k := fun e => h (hp e)
        rw [if_neg this]
        exact hs i (by have : i.1 ≠ k.1 := fun e => h (Fin.ext e); omega))
  exact this i i.2

/-- With pivots that are not masked, `ldlt.solve` keeps NaN. -/
theorem ldltSolve_nan {n : Nat} (A : Mat XReal n n)
    (hp : ∀ i, (2.2250738585072014e-308 : XReal) < cabs ((ldltCompute A).mat i i)) {r : Vec XReal n}
    (h : r.HasNaN) : ((ldltCompute A).solve r).HasNaN := by
  obtain ⟨i, h⟩ := h
  have hinj := ldltPerm_injective A
  obtain ⟨k, rfl⟩ := (Finite.injective_iff_bijective.1 hinj).2 i
  refine ⟨ldltPerm A k, ?_⟩
  unfold Ldlt.solve
  simp only [if_pos (hp _)]
  refine (scatter_spec' (ldltPerm A) hinj _ r k).trans (unitLowerTSolve_nan ?_)
  rw [Vec.get_ofFn, unitLowerSolve_nan]
  · simp
  · rw [Vec.get_ofFn]; exact h

theorem denseStep_nan {d : DenseData XReal nz nl nv} {alpha sigma : XReal}
    {x xbar : Point XReal nz nl nv} {r : Resid XReal nz nl nv} (h : r.z.HasNaN ∨ r.l.HasNaN)
    (hp : ∀ i, (2.2250738585072014e-308 : XReal) < cabs ((ldltCompute (denseK d alpha x xbar sigma)).mat i i)) :
    (denseStep d alpha x xbar sigma r).HasNaN := by
  have := ldltSolve_nan _ hp (r := Vec.append (r.z - d.A.transpose * r.v.cwiseQuotient
    (Vec.ofFn fun i => pfbMu alpha sigma x.y x.v xbar.v i)) (-r.l)) (by
    rcases h with ⟨i, h⟩ | ⟨i, h⟩
    · exact ⟨Fin.castAdd nl i, by simp [Vec.append, h]⟩
    · exact ⟨Fin.natAdd nz i, by simp [Vec.append, h]⟩)
  obtain ⟨a, h⟩ := this
  revert h
  refine Fin.addCases (fun i h => ?_) (fun i h => ?_) a
  · exact .inl ⟨i, by simp only [denseStep, Vec.head, Vec.get_ofFn]; exact h⟩
  · exact .inr (.inl ⟨i, by simp only [denseStep, Vec.tail, Vec.get_ofFn]; exact h⟩)

/-- Finite convex data: no pivot is masked. -/
theorem up_pivots (d : DenseData ℝ nz nl nv) (hc : (QP.ofDense d).Convex) {alpha sigma : ℝ}
    (h0 : 0 < alpha) (h1 : alpha < 1) (hs : 1e-10 ≤ sigma) (x xbar : Point ℝ nz nl nv) (i) :
    (2.2250738585072014e-308 : XReal) <
      cabs ((ldltCompute (denseK d.up (up alpha) x.up xbar.up (up sigma))).mat i i) := by
  have hs0 : 0 < sigma := lt_of_lt_of_le (by norm_num) hs
  rw [up_denseK d h0 h1 hs0, up_ldltCompute]
  have := ldlt_pivots hs0 _ (denseK_quasiDefinite d hc h0 h1 hs0 x xbar) i
  have h2 := lt_of_lt_of_le (tiny_lt hs) this

  simp only [Ldlt.up, Mat.up_get, up_cabs, up_ofScientific, up_lt]
  rw [cabs_eq_abs]
  exact h2

end Fbstab
