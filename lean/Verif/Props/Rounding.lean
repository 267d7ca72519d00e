import Verif.Proofs.RoundingMpc
import Verif.Props.Control

/-!
# C62: SUCCESS in floating point arithmetic
-/

namespace Fbstab
variable {K : Type} [Scalar K] {u eta : ℝ}

theorem QP.RoundedKKT.mono {nz nl nv : Nat} {q : QP nz nl nv} {alpha tau tau' g w : ℝ} {z l v y}
    (h : q.RoundedKKT alpha tau g w z l v y) (h0 : 0 ≤ tau) (hle : tau ≤ tau') (hg : g < 1) :
    q.RoundedKKT alpha tau' g w z l v y := by
  have hg' : 0 < 1 - g := by linarith
  have m : √(tau ^ 2 + w) / (1 - g) ^ 4 ≤ √(tau' ^ 2 + w) / (1 - g) ^ 4 := by gcongr
  refine ⟨h.stationary.trans (by linarith), h.eq.trans (by linarith), fun i => (h.complementary i).trans ?_⟩
  gcongr

theorem Rounding.Ops.solved {F : Rounding K u eta} {nz nl nv n : Nat} {q : QP nz nl nv}
    {ops : QPOps K nz nl nv} (hq : F.Ops q ops n) (hn : n + 4 ≤ 4 * (nz + nl + nv) + 8)
    (hg : roundOff u nz nl nv < 1) {o : Params K} {alpha at' rt : ℝ}
    (hal : F.toReal o.alpha = some alpha) (h0 : 0 ≤ alpha) (h1 : alpha ≤ 1)
    (hat : F.toReal o.absTol = some at') (hat0 : 0 ≤ at') (hrt : F.toReal o.relTol = some rt)
    (hrt0 : 0 ≤ rt) (hf : ∃ t, F.toReal (stoppingTol ops o) = some t) (x : Point K nz nl nv)
    (h : residualNorm ops o.alpha x ≤ stoppingTol ops o) :
    ∃ z l v y, F.Reads x.z z ∧ F.Reads x.l l ∧ F.Reads x.v v ∧ F.Reads x.y y ∧
      q.RoundedKKT alpha (roundedTol q at' rt (roundOff u nz nl nv) (underFlow eta nz nl nv))
        (roundOff u nz nl nv) (underFlow eta nz nl nv) z l v y := by
  obtain ⟨tau, ht⟩ := hf
  have hc : F.Consts (4 * (nz + nl + nv) + 8) (roundOff u nz nl nv) := ⟨by omega, rfl, hg⟩
  have hw : 2 * ((4 * (nz + nl + nv) + 8 : ℕ) : ℝ) * eta ≤ underFlow eta nz nl nv := le_rfl
  obtain ⟨z, l, v, y, hz, hl, hv, hy, hk⟩ := hq.kkt (by omega) hc (by omega) hw hal h0 h1 ht x h
  refine ⟨z, l, v, y, hz, hl, hv, hy, hk.mono ?_ ?_ hg⟩
  · obtain ⟨rho, hr⟩ := F.sqrt_finite _ _ _ h ht
    have := (F.le _ _ _ _ hr ht).1 h
    exact (Rounding.norm3_lower hc (by omega) hw hr).1.trans this
  · have hP : (1 + u) ^ (4 * (nz + nl + nv) + 8) = 1 + roundOff u nz nl nv := by unfold roundOff; ring
    have := hq.tol hn hw (by rw [hP]; linarith) hat hrt hat0 hrt0 ht
    rw [hP] at this
    exact this

/-- C62, FBstabDense: in any arithmetic with rounding, overflow and underflow: if the problem data and the
tolerance are finite, then SUCCESS by the residual test means that the returned vectors are finite and
satisfy the KKT conditions of the quadratic program in exact arithmetic, up to the tolerance of the options and
the rounding error of evaluating the residual once.  How the solver computed its iterates does not matter. -/
theorem C62_dense (F : Rounding K u eta) (s : FBstabDense K) (hz : 0 < s.nz)
    (hl : 1 ≤ s.options.maxProxIters) (p : DenseProblem K) (x : CallerVar K) (q : QP s.nz s.nl s.nv)
    (hq : F.ReadsDense (p.toData s.nz s.nl s.nv) q) (hg : roundOff u s.nz s.nl s.nv < 1)
    (alpha absTol relTol : ℝ) (ha : F.toReal s.options.alpha = some alpha) (h0 : 0 ≤ alpha) (h1 : alpha ≤ 1)
    (hat : F.toReal s.options.absTol = some absTol) (hat0 : 0 ≤ absTol)
    (hrt : F.toReal s.options.relTol = some relTol) (hrt0 : 0 ≤ relTol)
    (hf : ∃ t, F.toReal (stoppingTol (s.problem p) s.options) = some t)
    (out : SolverOut K) (h : (s.solve p x).result = .ok out) (hs : out.eflag = .success) :
    let xr := (s.solve p x).x.point s.nz s.nl s.nv
    let g := roundOff u s.nz s.nl s.nv
    let w := underFlow eta s.nz s.nl s.nv
    (∃ z l v y, F.Reads xr.z z ∧ F.Reads xr.l l ∧ F.Reads xr.v v ∧ F.Reads xr.y y ∧
      q.RoundedKKT alpha (roundedTol q absTol relTol g w) g w z l v y) ∨
    (out.proxIters = 0 ∧ onesNorm K s.nz s.nl s.nv ≤ s.options.stallTol) ∨
    (0 < out.proxIters ∧ stepNorm xr (s.proxIterate p x (out.proxIters - 1)) ≤ s.options.stallTol) := by
  intro xr g w
  obtain ⟨he, hr | hr⟩ := C06_dense s hl p x out h hs
  · rw [he] at hr
    exact .inl ((Rounding.denseOps hz hq).solved (by omega) hg ha h0 h1 hat hat0 hrt hrt0 hf _ hr)
  · exact .inr hr

/-- C62 for `FBstabMpc`. -/
theorem C62_mpc (F : Rounding K u eta) (s : FBstabMpc K) (hx : 0 < s.nx)
    (hl : 1 ≤ s.options.maxProxIters) (p : MpcProblem K) (x : CallerVar K) (q : Ocp s.N s.nx s.nu s.nc)
    (hq : F.ReadsMpc (p.toData s.N s.nx s.nu s.nc) q)
    (hg : roundOff u ((s.N + 1) * (s.nx + s.nu)) ((s.N + 1) * s.nx) ((s.N + 1) * s.nc) < 1)
    (alpha absTol relTol : ℝ) (ha : F.toReal s.options.alpha = some alpha) (h0 : 0 ≤ alpha) (h1 : alpha ≤ 1)
    (hat : F.toReal s.options.absTol = some absTol) (hat0 : 0 ≤ absTol)
    (hrt : F.toReal s.options.relTol = some relTol) (hrt0 : 0 ≤ relTol)
    (hf : ∃ t, F.toReal (stoppingTol (s.problem p) s.options) = some t)
    (out : SolverOut K) (h : (s.solve p x).result = .ok out) (hs : out.eflag = .success) :
    let nz := (s.N + 1) * (s.nx + s.nu)
    let nl := (s.N + 1) * s.nx
    let nv := (s.N + 1) * s.nc
    let xr := (s.solve p x).x.point nz nl nv
    let g := roundOff u nz nl nv
    let w := underFlow eta nz nl nv
    (∃ z l v y, F.Reads xr.z z ∧ F.Reads xr.l l ∧ F.Reads xr.v v ∧ F.Reads xr.y y ∧
      q.toQP.RoundedKKT alpha (roundedTol q.toQP absTol relTol g w) g w z l v y) ∨
    (out.proxIters = 0 ∧ onesNorm K nz nl nv ≤ s.options.stallTol) ∨
    (0 < out.proxIters ∧ stepNorm xr (s.proxIterate p x (out.proxIters - 1)) ≤ s.options.stallTol) := by
  intro nz nl nv xr g w
  obtain ⟨he, hr | hr⟩ := C06_mpc F.beqOk.zero s hl p x out h hs
  · rw [he] at hr
    exact .inl ((Rounding.mpcOps hx hq).solved (by omega) hg ha h0 h1 hat hat0 hrt hrt0 hf _ hr)
  · exact .inr hr

end Fbstab
