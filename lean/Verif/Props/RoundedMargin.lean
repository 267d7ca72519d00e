import Verif.Props.Rounding
import Verif.Proofs.RoundingFeas
import Verif.Spec.RoundedMargin

/-!
# C65: the inequality constraints in floating point arithmetic
-/

namespace Fbstab
open Matrix
variable {K : Type} [Scalar K] {u eta : ℝ}

namespace Rounding
variable {F : Rounding K u eta}

theorem denseMargin {nz nl nv : Nat} {d : DenseData K nz nl nv} {q : QP nz nl nv}
    (h : F.ReadsDense d q) (z rz) (hz : F.Reads z rz) (i : Fin nv) (h0 : F.Fin' (margin d.ops z i)) :
    F.Near (2 * (nz + nl + nv) + 4) (margin d.ops z i) (q.b i - (q.A *ᵥ rz) i) (q.marginSize rz i) := by
  have e : margin d.ops z i = (((-1 : K) * d.A) * z) i + 1 * (0 + 1 * d.b i) := by
    simp only [margin, DenseData.ops, DenseData.gemvA, DenseData.axpyb, Vec.get_add, Vec.get_smul,
      Vec.get_const]
  rw [e] at h0 ⊢
  obtain ⟨h1, h2⟩ := fin_add h0
  have n0 : F.Near 1 (0 + 1 * d.b i) (0 + q.b i) (|0| + |q.b i|) :=
    (near_exact F.zero).add (near_exact (h.b i)).one_mul (by omega) (fin_mul h2).2
  have nA := near_mulVec (F := F) (M := (-1 : K) * d.A) (a := fun j => -q.A i j)
    (fun j => by rw [Mat.get_smul, F.neg_one_mul _ _ F.neg_one, h.A i j]; rfl) hz h1
  have n1 := nA.add n0.one_mul (N := 2 * (nz + nl + nv) + 4) (by omega) h0
  refine n1.congr ?_ ?_
  · simp only [mulVec, dotProduct, neg_mul, Finset.sum_neg_distrib]; ring
  · simp only [QP.marginSize, abs_zero, abs_neg]; ring

theorem mpcMargin {N nx nu nc : Nat} {d : MpcData K N nx nu nc} {p : Ocp N nx nu nc}
    (h : F.ReadsMpc d p) (z rz) (hz : F.Reads z rz) (i) (h0 : F.Fin' (margin d.ops z i)) :
    F.Near (4 * ((N + 1) * (nx + nu) + (N + 1) * nx + (N + 1) * nc) + 4) (margin d.ops z i)
      (p.toQP.b i - (p.toQP.A *ᵥ rz) i) (p.toQP.marginSize rz i) := by
  have hb := F.beqOk
  have hzx : ∀ i, F.Reads (xBlock z i) (fun j => rz (xIdx i j)) := fun i j => by rw [xBlock_get]; exact hz _
  have hzu : ∀ i, F.Reads (uBlock z i) (fun j => rz (uIdx i j)) := fun i j => by rw [uBlock_get]; exact hz _
  have sx : ∀ i, Ocp.states rz i = fun j => rz (xIdx i j) := fun i => by funext j; rw [states_eq]
  have su : ∀ i, Ocp.controls rz i = fun j => rz (uIdx i j) := fun i => by funext j; rw [controls_eq]
  refine Near.mono (n := 2 * nx + 2 * nu + 2 * nc + 4) ?_ (by nlinarith) le_rfl
  revert h0
  revert i
  rw [forall_flat]
  intro i j h0
  have e : margin d.ops z (flatIdx i j) = 0 + -1 * d.d i j -
      ((d.E i * xBlock z i) j + (d.L i * uBlock z i) j) := by
    rw [← colBlock_get]
    simp only [margin, MpcData.ops]
    rw [d.gemvA_neg_gen hb, d.axpyb_any_gen]
    simp only [Vec.get_add, Vec.get_sub, Vec.get_smul, colBlock_get, Vec.get_const]
  rw [e] at h0 ⊢
  have hh : p.toQP.b (flatIdx i j) = -p.d i j := by simp [Ocp.toQP]
  obtain ⟨h1, h2⟩ := fin_sub h0
  obtain ⟨h3, h4⟩ := fin_add h2
  have n0 := (near_exact F.zero).add (near_exact (h.d i j)).neg_one_mul (N := 1) le_rfl h1
  have n1 := (near_mulVec' (h.E i) (hzx _) h3).add (near_mulVec' (h.L i) (hzu _) h4)
    (N := 2 * nx + 2 * nu + 1) le_rfl h2
  have n2 := n0.sub n1 (N := 2 * nx + 2 * nu + 2 * nc + 4) (by omega) h0
  refine (n2.congr (e' := p.toQP.b (flatIdx i j) - (p.toQP.A *ᵥ rz) (flatIdx i j)) ?_ rfl).mono le_rfl ?_
  · rw [p.A_c, sx, su, hh]; ring
  · have := p.A_c_size rz i j
    simp only [QP.marginSize, hh, abs_neg, abs_zero]; linarith

/-- From the margin to the constraints. -/
theorem margin_feasible {nz nl nv : Nat} {q : QP nz nl nv} {alpha tol g w : ℝ} (h0 : 0 ≤ alpha) {z l v y}
    (hk : q.RoundedKKT alpha tol g w z l v y) (hm : q.IsMargin g w z y) :
    q.RoundedFeasible alpha tol g w z := by
  intro i
  have h1 := hk.complementary i
  have h2 := (abs_le.1 (hm i)).2
  have h3 : -min (y i) (v i) ≤ |min (y i) (v i)| := neg_le_abs _
  have h4 : min (y i) (v i) ≤ y i := min_le_left _ _
  have h5 : (q.A *ᵥ z) i - q.b i ≤ |min (y i) (v i)| + (g * q.marginSize z i + w) := by linarith
  have := mul_le_mul_of_nonneg_left h5 h0
  linarith

end Rounding

/-- C65, FBstabDense: if the point given to the solver already passes the residual test, then the returned `y`
is the margin `b - A z` and `z` satisfies the inequality constraints, up to the rounding error of
evaluating `b - A z` once, in any arithmetic with rounding. -/
theorem C65_dense (F : Rounding K u eta) (s : FBstabDense K) (hz : 0 < s.nz)
    (p : DenseProblem K) (x : CallerVar K) (q : QP s.nz s.nl s.nv)
    (hq : F.ReadsDense (p.toData s.nz s.nl s.nv) q) (hg : roundOff u s.nz s.nl s.nv < 1)
    (alpha absTol relTol : ℝ) (ha : F.toReal s.options.alpha = some alpha) (h0 : 0 ≤ alpha) (h1 : alpha ≤ 1)
    (hat : F.toReal s.options.absTol = some absTol) (hat0 : 0 ≤ absTol)
    (hrt : F.toReal s.options.relTol = some relTol) (hrt0 : 0 ≤ relTol)
    (hf : ∃ t, F.toReal (stoppingTol (s.problem p) s.options) = some t)
    (out : SolverOut K) (h : (s.solve p x).result = .ok out) (hs : out.eflag = .success)
    (hp : out.proxIters = 0) :
    let xr := (s.solve p x).x.point s.nz s.nl s.nv
    let g := roundOff u s.nz s.nl s.nv
    let w := underFlow eta s.nz s.nl s.nv
    let tol := roundedTol q absTol relTol g w
    (∃ z l v y, F.Reads xr.z z ∧ F.Reads xr.l l ∧ F.Reads xr.v v ∧ F.Reads xr.y y ∧
      q.RoundedKKT alpha tol g w z l v y ∧ q.IsMargin g w z y ∧ q.RoundedFeasible alpha tol g w z) ∨
    onesNorm K s.nz s.nl s.nv ≤ s.options.stallTol := by
  intro xr g w tol
  obtain ⟨-, -, fin, -, hr, rfl, e⟩ := FBstabDense.returned h
  obtain ⟨e1, -, hr | hr⟩ := hr.immediate hs hp
  · left
    rw [show xr = x.guess (s.problem p) from by
      show (s.solve p x).x.point s.nz s.nl s.nv = _
      rw [e, CallerVar.point_ofPoint, e1]]
    obtain ⟨z, l, v, y, r1, r2, r3, r4, hk⟩ := (Rounding.denseOps hz hq).solved (by omega) hg ha h0 h1 hat hat0
      hrt hrt0 hf _ hr
    have hm : q.IsMargin g w z y := by
      intro i
      have hn := Rounding.denseMargin hq _ z r1 i ⟨_, r4 i⟩
      have hc : F.Consts (4 * (s.nz + s.nl + s.nv) + 8) g := ⟨by omega, rfl, hg⟩
      refine (hc.near (by omega) hn (r4 i)).trans ?_
      have := F.eta_nonneg
      show _ ≤ _ + 2 * ((4 * (s.nz + s.nl + s.nv) + 8 : ℕ) : ℝ) * eta
      refine add_le_add le_rfl (mul_le_mul_of_nonneg_right (mul_le_mul_of_nonneg_left ?_ (by norm_num)) this)
      exact_mod_cast (by omega)
    exact ⟨z, l, v, y, r1, r2, r3, r4, hk, hm, Rounding.margin_feasible h0 hk hm⟩
  · exact .inr hr

/-- C65 for `FBstabMpc`. -/
theorem C65_mpc (F : Rounding K u eta) (s : FBstabMpc K) (hx : 0 < s.nx)
    (p : MpcProblem K) (x : CallerVar K) (q : Ocp s.N s.nx s.nu s.nc)
    (hq : F.ReadsMpc (p.toData s.N s.nx s.nu s.nc) q)
    (hg : roundOff u ((s.N + 1) * (s.nx + s.nu)) ((s.N + 1) * s.nx) ((s.N + 1) * s.nc) < 1)
    (alpha absTol relTol : ℝ) (ha : F.toReal s.options.alpha = some alpha) (h0 : 0 ≤ alpha) (h1 : alpha ≤ 1)
    (hat : F.toReal s.options.absTol = some absTol) (hat0 : 0 ≤ absTol)
    (hrt : F.toReal s.options.relTol = some relTol) (hrt0 : 0 ≤ relTol)
    (hf : ∃ t, F.toReal (stoppingTol (s.problem p) s.options) = some t)
    (out : SolverOut K) (h : (s.solve p x).result = .ok out) (hs : out.eflag = .success)
    (hp : out.proxIters = 0) :
    let nz := (s.N + 1) * (s.nx + s.nu)
    let nl := (s.N + 1) * s.nx
    let nv := (s.N + 1) * s.nc
    let xr := (s.solve p x).x.point nz nl nv
    let g := roundOff u nz nl nv
    let w := underFlow eta nz nl nv
    let tol := roundedTol q.toQP absTol relTol g w
    (∃ z l v y, F.Reads xr.z z ∧ F.Reads xr.l l ∧ F.Reads xr.v v ∧ F.Reads xr.y y ∧
      q.toQP.RoundedKKT alpha tol g w z l v y ∧ q.toQP.IsMargin g w z y ∧
      q.toQP.RoundedFeasible alpha tol g w z) ∨
    onesNorm K nz nl nv ≤ s.options.stallTol := by
  intro nz nl nv xr g w tol
  obtain ⟨-, -, fin, -, hr, rfl, e⟩ := FBstabMpc.returned F.beqOk.zero h
  obtain ⟨e1, -, hr | hr⟩ := hr.immediate hs hp
  · left
    rw [show xr = x.guess (s.problem p) from by
      show (s.solve p x).x.point nz nl nv = _
      rw [e, CallerVar.point_ofPoint, e1]]
    obtain ⟨z, l, v, y, r1, r2, r3, r4, hk⟩ := (Rounding.mpcOps hx hq).solved (by omega) hg ha h0 h1 hat hat0
      hrt hrt0 hf _ hr
    have hm : q.toQP.IsMargin g w z y := by
      intro i
      have hn := Rounding.mpcMargin hq _ z r1 i ⟨_, r4 i⟩
      have hc : F.Consts (4 * (nz + nl + nv) + 8) g := ⟨by omega, rfl, hg⟩
      refine (hc.near (by omega) hn (r4 i)).trans ?_
      have := F.eta_nonneg
      show _ ≤ _ + 2 * ((4 * (nz + nl + nv) + 8 : ℕ) : ℝ) * eta
      refine add_le_add le_rfl (mul_le_mul_of_nonneg_right (mul_le_mul_of_nonneg_left ?_ (by norm_num)) this)
      exact_mod_cast (by omega)
    exact ⟨z, l, v, y, r1, r2, r3, r4, hk, hm, Rounding.margin_feasible h0 hk hm⟩
  · exact .inr hr

end Fbstab
