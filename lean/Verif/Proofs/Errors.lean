import Verif.Proofs.ApiSem
import Verif.Spec.Outcome

/-!
# Which exceptions a run can throw
-/

namespace Fbstab
namespace Core
variable {K : Type} [Scalar K] {nz nl nv : Nat}

theorem saturate_error {x a b : K} {e : Err} (h : saturate x a b = .error e) :
    e = .runtimeError "In tools::saturate: upper bound must be larger than the lower bound" := by
  unfold saturate at h
  split at h
  · cases h; rfl
  · cases h

theorem solve_error {E : Env K nz nl nv} {m0 : String}
    (hf : ∀ x xbar sigma e, E.factor x xbar sigma = .error e → e = .runtimeError m0)
    {ws : FeasWs K nz nl nv} {z : Vec K nz} {l : Vec K nl}
    {v : Vec K nv} {e : Err} (h : (solve E ws z l v).2 = .error e) :
    ∃ m, e = .runtimeError m ∧ m ∈ algorithmErrors m0 := by
  rcases solve_threw h with h | ⟨tol, k, s, -, -, h⟩
  · exact ⟨_, saturate_error h, by simp [algorithmErrors]⟩
  · cases h with
    | tol _ ht => exact ⟨_, saturate_error ht, by simp [algorithmErrors]⟩
    | inner _ _ hs =>
      obtain ⟨x', h | ⟨-, h⟩⟩ := innerLoop_error _ _ _ _ _ _ _ _ _ _ _ _ _ _ (subproblem_error hs)
      · exact ⟨_, hf _ _ _ _ h, by simp [algorithmErrors]⟩
      · exact ⟨_, h, by simp [algorithmErrors]⟩

end Core

section
variable {K : Type} [Scalar K]

theorem FBstabDense.core_error {s : FBstabDense K} {qp : DenseProblem K} {x : CallerVar K} {e : Err}
    (h : (s.core qp x).2 = .error e) : ∃ m, e = .runtimeError m ∧ m ∈ denseErrors := by
  refine Core.solve_error ?_ h
  intro x xbar sigma e h
  simp only [denseSem, denseFactor] at h
  split at h
  · cases h; rfl
  · split at h <;> cases h

theorem FBstabMpc.core_error (h0 : ((0 : K) == 0) = true) {s : FBstabMpc K} {p : MpcProblem K}
    {x : CallerVar K} {e : Err} (h : (s.core h0 p x).2 = .error e) :
    ∃ m, e = .runtimeError m ∧ m ∈ mpcErrors := by
  refine Core.solve_error ?_ h
  intro x xbar sigma e h
  simp only [riccatiSem, RiccatiWs.factor] at h
  split at h
  · cases h; rfl
  · split at h <;> cases h

end
end Fbstab
