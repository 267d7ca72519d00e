import Verif.Spec.Newton
import Mathlib.Analysis.Calculus.FDeriv.Prod
import Mathlib.Analysis.Calculus.Deriv.Basic

/-!
# Gradients of functions of two real variables, and the merit function
-/

namespace Fbstab
open Matrix Topology Filter

/-- `F` is differentiable at `(a, b)` with partial derivatives `g.1` and `g.2`. -/
def HasGradient (F : ℝ → ℝ → ℝ) (g : ℝ × ℝ) (a b : ℝ) : Prop :=
  HasFDerivAt (fun p : ℝ × ℝ => F p.1 p.2)
    (g.1 • ContinuousLinearMap.fst ℝ ℝ ℝ + g.2 • ContinuousLinearMap.snd ℝ ℝ ℝ) (a, b)

/-- `g` is a limit of gradients of `F` at points that tend to `(a, b)` (an element of the
B-subdifferential, hence of Clarke's generalised gradient). -/
def LimitingGradient (F : ℝ → ℝ → ℝ) (g : ℝ × ℝ) (a b : ℝ) : Prop :=
  ∃ (p : ℕ → ℝ × ℝ) (h : ℕ → ℝ × ℝ), Tendsto p atTop (𝓝 (a, b)) ∧
    (∀ n, HasGradient F (h n) (p n).1 (p n).2) ∧ Tendsto h atTop (𝓝 g)

/-- The merit function of the proximal subproblem for the complementarity function `phi`: half the
square of the norm of the residual described in `Verif/Spec/Newton.lean`. -/
noncomputable def QP.merit {nz nl nv : Nat} (q : QP nz nl nv) (phi : ℝ → ℝ → ℝ) (sigma : ℝ)
    (zb : Fin nz → ℝ) (lb : Fin nl → ℝ) (vb : Fin nv → ℝ)
    (z : Fin nz → ℝ) (l : Fin nl → ℝ) (v : Fin nv → ℝ) : ℝ :=
  (1 / 2) * ((∑ i, (q.lagrangeGrad z l v i + sigma * (z i - zb i)) ^ 2) +
    (∑ i, (q.h i - (q.G *ᵥ z) i + sigma * (l i - lb i)) ^ 2) +
    ∑ i, phi (q.b i - (q.A *ᵥ z) i + sigma * (v i - vb i)) (v i) ^ 2)

end Fbstab
