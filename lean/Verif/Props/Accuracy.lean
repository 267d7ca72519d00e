import Verif.Proofs.Accuracy
import Verif.Props.RoundingExamples
import Verif.Props.RoundingExamplesMpc

/-!
# C70: SUCCESS means close to the minimiser and to the optimal value, in floating point too
-/

namespace Fbstab
variable {K : Type} [Scalar K] {u eta : ℝ}

/-- C70, FBstabDense: in any arithmetic with rounding, overflow and underflow: if the problem data and the tolerance
are finite, then after SUCCESS by the residual test the returned vectors are finite, their distance from every exact
solution of the quadratic program is bounded, and so is the difference between their objective and the optimal value.
The bounds are formulas in the tolerance of the options, the rounding error of evaluating the residual once, and the
difference between the returned margin and `b - A z`. -/
theorem C70_dense (F : Rounding K u eta) (s : FBstabDense K) (hz : 0 < s.nz)
    (hl : 1 ≤ s.options.maxProxIters) (p : DenseProblem K) (x : CallerVar K) (q : QP s.nz s.nl s.nv)
    (hq : F.ReadsDense (p.toData s.nz s.nl s.nv) q) (hg : roundOff u s.nz s.nl s.nv < 1)
    (alpha absTol relTol : ℝ) (ha : F.toReal s.options.alpha = some alpha) (h0 : 0 < alpha) (h1 : alpha ≤ 1)
    (hat : F.toReal s.options.absTol = some absTol) (hat0 : 0 ≤ absTol)
    (hrt : F.toReal s.options.relTol = some relTol) (hrt0 : 0 ≤ relTol)
    (hf : ∃ t, F.toReal (stoppingTol (s.problem p) s.options) = some t)
    (out : SolverOut K) (h : (s.solve p x).result = .ok out) (hs : out.eflag = .success) :
    let xr := (s.solve p x).x.point s.nz s.nl s.nv
    let g := roundOff u s.nz s.nl s.nv
    let w := underFlow eta s.nz s.nl s.nv
    let tol := roundedTol q absTol relTol g w
    (∃ z l v y, F.Reads xr.z z ∧ F.Reads xr.l l ∧ F.Reads xr.v v ∧ F.Reads xr.y y ∧
      q.Accurate (q.statBound tol g w z l v) (q.eqBound tol g w z) (compBound alpha tol g w) z l v y) ∨
    (out.proxIters = 0 ∧ onesNorm K s.nz s.nl s.nv ≤ s.options.stallTol) ∨
    (0 < out.proxIters ∧ stepNorm xr (s.proxIterate p x (out.proxIters - 1)) ≤ s.options.stallTol) := by
  intro xr g w tol
  rcases C62_dense F s hz hl p x q hq hg alpha absTol relTol ha h0.le h1 hat hat0 hrt hrt0 hf out h hs with
    ⟨z, l, v, y, a1, a2, a3, a4, hk⟩ | hr
  · exact .inl ⟨z, l, v, y, a1, a2, a3, a4, hk.accurate h0⟩
  · exact .inr hr

/-- C70 for `FBstabMpc`. -/
theorem C70_mpc (F : Rounding K u eta) (s : FBstabMpc K) (hx : 0 < s.nx)
    (hl : 1 ≤ s.options.maxProxIters) (p : MpcProblem K) (x : CallerVar K) (q : Ocp s.N s.nx s.nu s.nc)
    (hq : F.ReadsMpc (p.toData s.N s.nx s.nu s.nc) q)
    (hg : roundOff u ((s.N + 1) * (s.nx + s.nu)) ((s.N + 1) * s.nx) ((s.N + 1) * s.nc) < 1)
    (alpha absTol relTol : ℝ) (ha : F.toReal s.options.alpha = some alpha) (h0 : 0 < alpha) (h1 : alpha ≤ 1)
    (hat : F.toReal s.options.absTol = some absTol) (hat0 : 0 ≤ absTol)
    (hrt : F.toReal s.options.relTol = some relTol) (hrt0 : 0 ≤ relTol)
    (hf : ∃ t, F.toReal (stoppingTol (s.problem p) s.options) = some t)
    (out : SolverOut K) (h : (s.solve p x).result = .ok out) (hs : out.eflag = .success) :
    let nz := (s.N + 1) * (s.nx + s.nu)
    let nl := (s.N + 1) * s.nx
    let nv := (s.N + 1) * s.nc
    let xr := (s.solve p x).x.point nz nl nv
    let g := roundOff u nz nl nv
    let w := underFlow eta nz nl nv
    let tol := roundedTol q.toQP absTol relTol g w
    (∃ z l v y, F.Reads xr.z z ∧ F.Reads xr.l l ∧ F.Reads xr.v v ∧ F.Reads xr.y y ∧
      q.toQP.Accurate (q.toQP.statBound tol g w z l v) (q.toQP.eqBound tol g w z) (compBound alpha tol g w) z l v y) ∨
    (out.proxIters = 0 ∧ onesNorm K nz nl nv ≤ s.options.stallTol) ∨
    (0 < out.proxIters ∧ stepNorm xr (s.proxIterate p x (out.proxIters - 1)) ≤ s.options.stallTol) := by
  intro nz nl nv xr g w tol
  rcases C62_mpc F s hx hl p x q hq hg alpha absTol relTol ha h0.le h1 hat hat0 hrt hrt0 hf out h hs with
    ⟨z, l, v, y, a1, a2, a3, a4, hk⟩ | hr
  · exact .inl ⟨z, l, v, y, a1, a2, a3, a4, hk.accurate h0⟩
  · exact .inr hr

/-- C70_dense: the run of a default solver in binary64 of the instance of C62. -/
example (junk : DenseJunk Binary64) :
    let xr := ((roundSolver junk).solve roundProblem roundGuess).x.point 1 0 1
    let g := roundOff ((2 : ℝ) ^ (-53 : ℤ)) 1 0 1
    let w := underFlow ((2 : ℝ) ^ (-1075 : ℤ)) 1 0 1
    ∃ z l v y alpha tol, Binary64.rounding.Reads xr.z z ∧ Binary64.rounding.Reads xr.v v ∧ 0.9 ≤ alpha ∧
      tol ≤ 1.01e-6 ∧ roundQP.Accurate (roundQP.statBound tol g w z l v) (roundQP.eqBound tol g w z)
        (compBound alpha tol g w) z l v y := by
  intro xr g w
  obtain ⟨z, l, v, y, alpha, tol, h1, _, h3, _, h5, h6, h7⟩ := round_kkt junk
  exact ⟨z, l, v, y, alpha, tol, h1, h3, h5, h6, h7.accurate (by norm_num at h5; linarith)⟩

/-- C70_mpc, in binary64. -/
example (junk : MpcJunk Binary64) :
    let xr := ((restSolver junk).solve restProblem restGuess).x.point 4 2 2
    let g := roundOff ((2 : ℝ) ^ (-53 : ℤ)) 4 2 2
    let w := underFlow ((2 : ℝ) ^ (-1075 : ℤ)) 4 2 2
    ∃ z l v y alpha absTol relTol, Binary64.rounding.Reads xr.z z ∧ Binary64.rounding.Reads xr.v v ∧ 0.9 ≤ alpha ∧
      absTol ≤ 1.01e-6 ∧ relTol ≤ 1.01e-12 ∧
      let tol := roundedTol restOcp.toQP absTol relTol g w
      restOcp.toQP.Accurate (restOcp.toQP.statBound tol g w z l v) (restOcp.toQP.eqBound tol g w z)
        (compBound alpha tol g w) z l v y := by
  intro xr g w
  obtain ⟨z, l, v, y, alpha, a, r, h1, _, h3, _, h5, h6, h6', h7⟩ := rest_kkt junk
  exact ⟨z, l, v, y, alpha, a, r, h1, h3, h5, h6, h6', h7.accurate (by norm_num at h5; linarith)⟩

end Fbstab
