import Verif.Proofs.Loops
import Verif.Proofs.Simulation

/-!
# The dense linear solver does not depend on its workspaces
-/

namespace Fbstab
variable {K : Type} [Scalar K] {nz nl nv : Nat}

/-- The factored matrix, with zeros in the block that is never read. -/
def denseK (d : DenseData K nz nl nv) (alpha : K) (x xbar : Point K nz nl nv) (sigma : K) :
    Mat K (nz + nl) (nz + nl) :=
  let Gamma : Vec K nv := Vec.ofFn fun i =>
    pfbGamma alpha sigma x.y x.v xbar.v i / pfbMu alpha sigma x.y x.v xbar.v i
  DenseWs.assignK (d.H + sigma * (Mat.identity : Mat K nz nz) +
    d.A.transpose * Mat.diagMul Gamma d.A) d.G sigma (Mat.ofFn fun _ _ => 0)

/-- The solution map after a factorisation. -/
def denseStep (d : DenseData K nz nl nv) (alpha : K) (x xbar : Point K nz nl nv) (sigma : K)
    (r : Resid K nz nl nv) : Point K nz nl nv :=
  let mus : Vec K nv := Vec.ofFn fun i => pfbMu alpha sigma x.y x.v xbar.v i
  let gamma : Vec K nv := Vec.ofFn fun i => pfbGamma alpha sigma x.y x.v xbar.v i
  let s := (ldltCompute (denseK d alpha x xbar sigma)).solve
    (Vec.append (r.z - d.A.transpose * r.v.cwiseQuotient mus) (-r.l))
  ⟨s.head, s.tail, (Vec.cwiseProduct gamma (d.A * s.head) + r.v).cwiseQuotient mus,
    d.b - d.A * s.head⟩

/-- What `Initialize` does. -/
def denseFactor (d : DenseData K nz nl nv) (alpha : K) (x xbar : Point K nz nl nv) (sigma : K) :
    Except Err (Option (Resid K nz nl nv → Point K nz nl nv)) :=
  if sigma ≤ 0 then .error (.runtimeError "In DenseCholeskySolver::Factor: sigma must be positive.")
  else if (ldltCompute (denseK d alpha x xbar sigma)).success then
    .ok (some (denseStep d alpha x xbar sigma))
  else .ok none

theorem assignK_lowerEq (E : Mat K nz nz) (G : Mat K nl nz) (sigma : K)
    (o o' : Mat K (nz + nl) (nz + nl)) :
    LowerEq (DenseWs.assignK E G sigma o) (DenseWs.assignK E G sigma o') := by
  intro i j
  simp only [DenseWs.assignK, Mat.get_ofFn]
  refine Fin.addCases (fun i' => ?_) (fun i' => ?_) i <;>
  refine Fin.addCases (fun j' => ?_) (fun j' => ?_) j <;> intro hij
  · simp
  · exfalso
    have h := Fin.le_def.mp hij
    simp only [Fin.val_natAdd, Fin.val_castAdd] at h
    omega
  · simp
  · simp

/-- The dense linear solver as a function. -/
def denseSem (K : Type) [Scalar K] (nz nl nv : Nat) : LinSem (denseSolver K nz nl nv) where
  factor := denseFactor
  Ready d a (st : DenseWs K nz nl nv) := st.data = some d ∧ st.alpha = a
  ready _ _ _ := ⟨rfl, rfl⟩
  spec d a (w : DenseWs K nz nl nv) x xbar sigma := by
    rintro ⟨hd, ha⟩
    subst ha
    have hK : ldltCompute (DenseWs.assignK (d.H + sigma * (Mat.identity : Mat K nz nz) +
        d.A.transpose * Mat.diagMul (Vec.ofFn fun i =>
          (Vec.ofFn fun i => pfbGamma w.alpha sigma x.y x.v xbar.v i : Vec K nv) i /
          (Vec.ofFn fun i => pfbMu w.alpha sigma x.y x.v xbar.v i : Vec K nv) i) d.A)
            d.G sigma w.K_) = ldltCompute (denseK d w.alpha x xbar sigma) := by
      simp only [Vec.get_ofFn]
      exact (assignK_lowerEq _ _ _ _ _).ldltCompute
    unfold denseFactor
    by_cases hs : sigma ≤ 0
    · rw [if_pos hs]
      refine ⟨w, ?_, hd, rfl⟩
      show DenseWs.init x xbar sigma w = _
      simp only [DenseWs.init, hd, if_pos hs]
      rfl
    · rw [if_neg hs]
      obtain ⟨w', hi, h1, h2, h3, h4, h5⟩ : ∃ w' : DenseWs K nz nl nv,
          DenseWs.init x xbar sigma w =
            .ok (ldltCompute (denseK d w.alpha x xbar sigma)).success w' ∧
          w'.data = some d ∧ w'.alpha = w.alpha ∧
          w'.mus = (Vec.ofFn fun i => pfbMu w.alpha sigma x.y x.v xbar.v i) ∧
          w'.gamma = (Vec.ofFn fun i => pfbGamma w.alpha sigma x.y x.v xbar.v i) ∧
          w'.ldlt = ldltCompute (denseK d w.alpha x xbar sigma) := by
        simp only [DenseWs.init, hd, if_neg hs, hK]
        exact ⟨_, rfl, rfl, rfl, rfl, rfl, rfl⟩
      cases hf : (ldltCompute (denseK d w.alpha x xbar sigma)).success with
      | false =>
        rw [hf] at hi
        exact ⟨_, hi, h1, h2⟩
      | true =>
        rw [hf] at hi
        refine ⟨_, hi, fun r dx => ?_⟩
        have : ∃ w'', DenseWs.solve r dx w' = .ok (true, denseStep d w.alpha x xbar sigma r) w'' ∧
            w''.data = some d ∧ w''.alpha = w.alpha := by
          rw [denseStep, ← h3, ← h4, ← h5]
          simp only [DenseWs.solve, h1]
          exact ⟨_, rfl, rfl, h2⟩
        exact this

end Fbstab
