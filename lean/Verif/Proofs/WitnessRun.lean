import Verif.Proofs.WitnessMpc
import Verif.Props.Control
import Verif.Proofs.Suboptimal

/-!
# Runs that really iterate
-/

namespace Fbstab
open Matrix

theorem one_le_onesNorm {nz nl nv : Nat} (hz : 0 < nz) : 1 ≤ onesNorm ℝ nz nl nv := by
  have h := (norm3_bounds (le_refl (onesNorm ℝ nz nl nv))).1
  refine le_trans ?_ h
  have := abs_le_euclid (Vec.const 1 : Vec ℝ nz).fn ⟨0, hz⟩
  simpa using this

/-- The guess violates a KKT condition by more than the tolerance. -/
def QP.BadGuess {nz nl nv : Nat} (q : QP nz nl nv) (tol : ℝ) (z : Fin nz → ℝ) (l : Fin nl → ℝ)
    (v : Fin nv → ℝ) : Prop :=
  (∃ i, tol < |q.lagrangeGrad z l v i|) ∨ ∃ i, tol < |(q.h - q.G *ᵥ z) i|

theorem QP.BadGuess.residual {nz nl nv : Nat} {q : QP nz nl nv} {ops : QPOps ℝ nz nl nv} (I : q.Implements ops)
    {tol alpha : ℝ} {x : CallerVar ℝ}
    (h : q.BadGuess tol (x.z.toVec nz).fn (x.l.toVec nl).fn (x.v.toVec nv).fn) :
    ¬residualNorm ops alpha (x.guess ops) ≤ tol := by
  intro hle
  have hb := norm3_bounds hle
  rw [I.gradLagrangian, I.eqDefect] at hb
  rcases h with ⟨i, hi⟩ | ⟨i, hi⟩
  · exact absurd ((abs_le_euclid _ i).trans hb.1) (not_le.2 hi)
  · exact absurd ((abs_le_euclid _ i).trans hb.2.1) (not_le.2 hi)

theorem FBstabDense.one_prox {s : FBstabDense ℝ} (hz : 0 < s.nz) (hst : s.options.stallTol < 1)
    {p : DenseProblem ℝ} {x : CallerVar ℝ} {out : SolverOut ℝ} (h : (s.solve p x).result = .ok out)
    (hs : out.eflag = .success)
    (hb : (s.qp p).BadGuess (stoppingTol (s.problem p) s.options) (x.z.toVec s.nz).fn (x.l.toVec s.nl).fn
      (x.v.toVec s.nv).fn) : 0 < out.proxIters := by
  by_contra hc
  rcases (C12_only_dense s p x out h hs (by omega)).1 with h1 | h1
  · exact hb.residual (s.realEnv p).ops h1
  · have := one_le_onesNorm (nl := s.nl) (nv := s.nv) hz
    linarith

theorem FBstabMpc.one_prox {s : FBstabMpc ℝ} (hz : 0 < (s.N + 1) * (s.nx + s.nu))
    (hst : s.options.stallTol < 1)
    {p : MpcProblem ℝ} {x : CallerVar ℝ} {out : SolverOut ℝ} (h : (s.solve p x).result = .ok out)
    (hs : out.eflag = .success)
    (hb : (s.qp p).BadGuess (stoppingTol (s.problem p) s.options) (x.z.toVec ((s.N + 1) * (s.nx + s.nu))).fn
      (x.l.toVec ((s.N + 1) * s.nx)).fn (x.v.toVec ((s.N + 1) * s.nc)).fn) : 0 < out.proxIters := by
  by_contra hc
  rcases (C12_only_mpc real_zero_beq s p x out h hs (by omega)).1 with h1 | h1
  · exact hb.residual (s.realEnv p).ops h1
  · have := one_le_onesNorm (nl := (s.N + 1) * s.nx) (nv := (s.N + 1) * s.nc) hz
    linarith

end Fbstab
