import Verif.Proofs.RealCore
import Verif.Proofs.Newton
import Verif.Proofs.Riccati
import Verif.Spec.Options

/-!
# Runs that do not throw
-/

namespace Fbstab.Core
variable {nz nl nv : Nat} {E : Env ℝ nz nl nv}

theorem saturate_ok {x a b : ℝ} (h : a ≤ b) : ∃ y, saturate x a b = .ok y := by
  unfold saturate
  rw [if_neg (not_lt.2 h)]
  exact ⟨_, rfl⟩

theorem innerLoop_total {K : Type} [Scalar K] {E : Env K nz nl nv} {sigma : K}
    (hf : ∀ x xbar, ∃ g, E.factor x xbar sigma = .ok (some g)) (tol Ek : K) (xbar : Point K nz nl nv)
    (fuel i : Nat) (t Eo : K) (x : Point K nz nl nv) (newton : Nat) (buf : Vec K 5)
    (rk : Resid K nz nl nv) :
    ∃ o, (innerLoop E tol sigma Ek xbar fuel i t Eo x newton buf rk).2 = .ok o := by
  induction fuel generalizing i t Eo x newton buf rk with
  | zero => exact ⟨_, rfl⟩
  | succ fuel ih =>
    simp only [innerLoop]
    split
    · exact ⟨_, rfl⟩
    · split
      · exact ⟨_, rfl⟩
      · obtain ⟨g, hg⟩ := hf x xbar
        rw [hg]
        exact ih _ _ _ _ _ _ _

theorem proxLoop_total (hf : ∀ x xbar, ∃ g, E.factor x xbar E.opts.sigma0 = .ok (some g))
    (ht : E.opts.innerTolMin ≤ E.comboTol) (E0 : ℝ) (fuel : Nat) (s : Outer ℝ nz nl nv) :
    ∃ fin, (proxLoop E E0 fuel s).2 = .ok fin := by
  induction fuel generalizing s with
  | zero => exact ⟨_, rfl⟩
  | succ fuel ih =>
    simp only [proxLoop]
    split
    · exact ⟨_, rfl⟩
    · rename_i hn
      obtain ⟨tol, htol⟩ := saturate_ok (x := s.innerTol * E.opts.delta)
        (ht.trans (not_le.1 fun h => hn (.inl h)).le)
      rw [htol]
      dsimp only
      obtain ⟨o, ho⟩ := innerLoop_total hf tol (Resid.norm (E.penRes s.xk)) s.xk
        E.opts.maxInnerIters.toNat 0 1 0 s.xk s.newton (Vec.const 0) (E.penRes s.xk)
      have : (subproblem E tol (Resid.norm (E.penRes s.xk)) s.xk s.newton (E.penRes s.xk)).2 =
          .ok { o with x := projectDuals o.x } := by
        simp only [subproblem, ho]; rfl
      rw [this]
      dsimp only
      generalize afterInner E E0 _ tol s _ = a
      rcases a with ⟨ev, fin⟩ | s'
      · exact ⟨_, rfl⟩
      · exact ih s'

theorem solve_total (hf : ∀ x xbar, ∃ g, E.factor x xbar E.opts.sigma0 = .ok (some g))
    (ht : E.opts.innerTolMin ≤ E.comboTol) (ht' : E.opts.innerTolMin ≤ E.opts.innerTolMax)
    (ws : FeasWs ℝ nz nl nv) (z : Vec ℝ nz) (l : Vec ℝ nl) (v : Vec ℝ nv) :
    ∃ fin, (solve E ws z l v).2 = .ok fin := by
  simp only [solve]
  obtain ⟨tol, htol⟩ := saturate_ok (x := Resid.norm (E.penRes (startPt E z l v))) ht'
  rw [htol]
  exact proxLoop_total hf ht _ _ _

end Fbstab.Core

namespace Fbstab

theorem Params.InRange.alpha_pos {o : Params ℝ} (h : o.InRange) : 0 < o.alpha :=
  lt_of_lt_of_le (by norm_num) h.alpha.1
theorem Params.InRange.alpha_lt {o : Params ℝ} (h : o.InRange) : o.alpha < 1 :=
  lt_of_le_of_lt h.alpha.2 (by norm_num)
theorem Params.InRange.sigma_tiny {o : Params ℝ} (h : o.InRange) :
    (2.2250738585072014e-308 : ℝ) < o.sigma0 := by
  refine lt_of_lt_of_le ?_ h.sigma0_pos
  set_option exponentiation.threshold 400 in norm_num
theorem Params.InRange.sigma_pos {o : Params ℝ} (h : o.InRange) : 0 < o.sigma0 :=
  tiny_pos.trans h.sigma_tiny

end Fbstab
