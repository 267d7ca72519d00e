import Verif.Proofs.Symmetry
import Verif.Proofs.WitnessMpc
import Verif.Props.Method

/-!
# C59: the order in which unknowns and constraints are listed does not matter

Nor do the signs of unknowns and equations.  (Over the reals and for convex problems: in floating point
arithmetic sums depend on the order of their terms, and on other problems the linear solvers pivot.)
-/

namespace Fbstab
open Matrix

/-- C59, for the method. -/
theorem C59_method {nz nl nv : Nat} (g : Relabel nz nl nv) {q : QP nz nl nv} {o : Params ℝ} {x : PD nz nl nv}
    {sub : ℝ} {r : Method.Result nz nl nv} (h : Method.Run q o x sub r) :
    Method.Run (g.qp q) o (g.point x) sub (g.result r) := Method.run_relabel g h

/-- C59: let `p'` be the problem `p` with unknowns, equations and inequalities listed in another order and
with unknowns and equations of other signs, and let the guess `x'` be `x` in that order.  Then
`FBstabDense::Solve` prints the same and returns the same report (or throws the same exception) for both,
and the points it returns are the same, up to the order and the signs. -/
theorem C59_dense (s : FBstabDense ℝ) (hs : s.Reachable) (g : Relabel s.nz s.nl s.nv) (p p' : DenseProblem ℝ)
    (x x' : CallerVar ℝ) (hf : DenseFits s.nz s.nl s.nv p x) (hf' : DenseFits s.nz s.nl s.nv p' x')
    (hy : x.YWritable s.nv) (hy' : x'.YWritable s.nv) (hc : (s.qp p).Convex)
    (hp : s.qp p' = g.qp (s.qp p)) (hz : (x'.z.toVec s.nz).fn = g.z.vec (x.z.toVec s.nz).fn)
    (hl : (x'.l.toVec s.nl).fn = g.l.vec (x.l.toVec s.nl).fn)
    (hv : (x'.v.toVec s.nv).fn = (x.v.toVec s.nv).fn ∘ g.v) :
    (s.solve p' x').log = (s.solve p x).log ∧ (s.solve p' x').result = (s.solve p x).result ∧
    ∀ out, (s.solve p x).result = .ok out →
      (s.returnedPoint p' x').z.fn = g.z.vec (s.returnedPoint p x).z.fn ∧
      (s.returnedPoint p' x').l.fn = g.l.vec (s.returnedPoint p x).l.fn ∧
      (s.returnedPoint p' x').v.fn = (s.returnedPoint p x).v.fn ∘ g.v ∧
      (s.returnedPoint p' x').y.fn = (s.returnedPoint p x).y.fn ∘ g.v := by
  have ho := C01_reachable_dense s hs
  have hc' : (s.qp p').Convex := hp ▸ g.convex _ hc
  obtain ⟨r, h1, h2, h3⟩ := Method.solve_full (s.newtonEnv ho p hc) s.mem.feas.ws (x.z.toVec s.nz)
    (x.l.toVec s.nl) (x.v.toVec s.nv) s.mem.ri.r
  obtain ⟨r', k1, k2, k3⟩ := Method.solve_full (s.newtonEnv ho p' hc') s.mem.feas.ws (x'.z.toVec s.nz)
    (x'.l.toVec s.nl) (x'.v.toVec s.nv) s.mem.ri.r
  have hcm := FBstabDense.solve_computes (s := s) hf
  have hcm' := FBstabDense.solve_computes (s := s) hf'
  have e : r' = g.result r := by
    refine C54_unique hc' (s.newtonEnv ho p' hc').inRange k1 ?_
    rw [hz, hl, hv, hp]
    exact Method.run_relabel g h1
  subst e
  revert h3 k3
  obtain ⟨log, v⟩ := r
  cases v with
  | none =>
    intro h3 k3
    obtain ⟨e1, -, e3⟩ := hcm.error _ h3
    obtain ⟨f1, -, f3⟩ := hcm'.error _ k3
    refine ⟨(f3.trans k2).trans (e3.trans h2).symm, f1.trans e1.symm, fun out h => ?_⟩
    rw [e1] at h; cases h
  | some w =>
    obtain ⟨out, w⟩ := w
    rintro ⟨fin, h3, rfl, rfl, hm⟩ ⟨fin', k3, e4, e5, hm'⟩
    obtain ⟨e1, e2, e3⟩ := hcm.ok fin h3 hy
    obtain ⟨f1, f2, f3⟩ := hcm'.ok fin' k3 hy'
    refine ⟨(f3.trans k2).trans (e3.trans h2).symm, by rw [f1, e1, e4], fun _ _ => ?_⟩
    simp only [FBstabDense.returnedPoint, e2, f2, CallerVar.point_ofPoint]
    refine ⟨(congrArg PD.z e5 :), (congrArg PD.l e5 :), (congrArg PD.v e5 :), ?_⟩
    have hm : fin.2.y.fn = (s.qp p).b - (s.qp p).A *ᵥ fin.2.z.fn := hm
    have hm' : fin'.2.y.fn = (s.qp p').b - (s.qp p').A *ᵥ fin'.2.z.fn := hm'
    have hz' : fin'.2.z.fn = g.z.vec fin.2.z.fn := congrArg PD.z e5
    rw [hm', hm, hz', hp, Relabel.mulA]
    rfl

/-- C59 for `FBstabMpc`: let `p'` be the optimal control problem `p` with the states, controls and
constraints of every stage listed in another order and with states and controls of other signs. -/
theorem C59_mpc (s : FBstabMpc ℝ) (hs : s.Reachable) (g : StageRelabel s.N s.nx s.nu s.nc) (p p' : MpcProblem ℝ)
    (x x' : CallerVar ℝ) (hf : MpcFits s.N s.nx s.nu s.nc p x) (hf' : MpcFits s.N s.nx s.nu s.nc p' x')
    (hcol : p.Columns) (hcol' : p'.Columns) (hc : (s.ocp p).Convex)
    (hp : s.ocp p' = g.ocp (s.ocp p)) (hz : (x'.z.toVec _).fn = g.stacked.z.vec (x.z.toVec _).fn)
    (hl : (x'.l.toVec _).fn = g.stacked.l.vec (x.l.toVec _).fn)
    (hv : (x'.v.toVec _).fn = (x.v.toVec _).fn ∘ g.stacked.v) :
    (s.solve p' x').log = (s.solve p x).log ∧ (s.solve p' x').result = (s.solve p x).result ∧
    ∀ out, (s.solve p x).result = .ok out →
      (∀ i, Ocp.states (s.returnedPoint p' x').z.fn i = (g.x i).vec (Ocp.states (s.returnedPoint p x).z.fn i)) ∧
      (∀ i, Ocp.controls (s.returnedPoint p' x').z.fn i =
        (g.u i).vec (Ocp.controls (s.returnedPoint p x).z.fn i)) ∧
      (s.returnedPoint p' x').l.fn = g.stacked.l.vec (s.returnedPoint p x).l.fn ∧
      (s.returnedPoint p' x').v.fn = (s.returnedPoint p x).v.fn ∘ g.stacked.v ∧
      (s.returnedPoint p' x').y.fn = (s.returnedPoint p x).y.fn ∘ g.stacked.v := by
  have ho := C01_reachable_mpc s hs
  have hq : s.qp p' = g.stacked.qp (s.qp p) := by
    rw [FBstabMpc.qp, FBstabMpc.qp, hp, g.toQP]
  have hc' : (s.ocp p').Convex := (C29_convex _).1 (by
    have := g.stacked.convex _ ((C29_convex _).2 hc)
    rw [← g.toQP, ← hp] at this
    exact this)
  obtain ⟨r, h1, h2, h3⟩ := Method.solve_full (s.newtonEnv ho p hc) s.mem.feas.ws (x.z.toVec _)
    (x.l.toVec _) (x.v.toVec _) s.mem.ri.r
  obtain ⟨r', k1, k2, k3⟩ := Method.solve_full (s.newtonEnv ho p' hc') s.mem.feas.ws (x'.z.toVec _)
    (x'.l.toVec _) (x'.v.toVec _) s.mem.ri.r
  have hcm := FBstabMpc.solve_computes real_zero_beq (s := s) hf hcol
  have hcm' := FBstabMpc.solve_computes real_zero_beq (s := s) hf' hcol'
  have e : r' = g.stacked.result r := by
    refine C54_unique (s.newtonEnv ho p' hc').convex (s.newtonEnv ho p' hc').inRange k1 ?_
    rw [hz, hl, hv, hq]
    exact Method.run_relabel g.stacked h1
  subst e
  revert h3 k3
  obtain ⟨log, v⟩ := r
  cases v with
  | none =>
    intro h3 k3
    obtain ⟨e1, -, e3⟩ := hcm.error _ h3
    obtain ⟨f1, -, f3⟩ := hcm'.error _ k3
    refine ⟨(f3.trans k2).trans (e3.trans h2).symm, f1.trans e1.symm, fun out h => ?_⟩
    rw [e1] at h; cases h
  | some w =>
    obtain ⟨out, w⟩ := w
    rintro ⟨fin, h3, rfl, rfl, hm⟩ ⟨fin', k3, e4, e5, hm'⟩
    obtain ⟨e1, e2, e3⟩ := hcm.ok fin h3 (fun _ => hf.y)
    obtain ⟨f1, f2, f3⟩ := hcm'.ok fin' k3 (fun _ => hf'.y)
    refine ⟨(f3.trans k2).trans (e3.trans h2).symm, by rw [f1, e1, e4], fun _ _ => ?_⟩
    have hm : fin.2.y.fn = (s.qp p).b - (s.qp p).A *ᵥ fin.2.z.fn := hm
    have hm' : fin'.2.y.fn = (s.qp p').b - (s.qp p').A *ᵥ fin'.2.z.fn := hm'
    have hz' : fin'.2.z.fn = g.stacked.z.vec fin.2.z.fn := congrArg PD.z e5
    simp only [FBstabMpc.returnedPoint, e2, f2, CallerVar.point_ofPoint]
    refine ⟨fun i => ?_, fun i => ?_, (congrArg PD.l e5 :), (congrArg PD.v e5 :), ?_⟩
    · rw [hz', g.states_vec]
    · rw [hz', g.controls_vec]
    · rw [hm', hm, hz', hq, Relabel.mulA]
      rfl

/-! ### Concrete cases -/

/-- minimise `z0^2/2 + z1^2 - z0` subject to `z0 + 2 z1 = 3`, `z0 <= 1`, `3 z1 <= 4` -/
noncomputable def listedQP : QP 2 1 2 where
  H := !![1, 0; 0, 2]
  f := ![-1, 0]
  G := !![1, 2]
  h := ![3]
  A := !![1, 0; 0, 3]
  b := ![1, 4]

/-- The same problem in the unknowns `(-z1, z0)`, with the inequalities exchanged and the equation
multiplied by `-1`. -/
noncomputable def relistedQP : QP 2 1 2 where
  H := !![2, 0; 0, 1]
  f := ![0, -1]
  G := !![2, -1]
  h := ![-3]
  A := !![-3, 0; 0, 1]
  b := ![4, 1]

/-- The new order. -/
def relist : Relabel 2 1 2 where
  z := ⟨Equiv.swap 0 1, ![-1, 1], by intro i; fin_cases i <;> simp⟩
  l := ⟨1, ![-1], by intro i; fin_cases i; simp⟩
  v := Equiv.swap 0 1

theorem relist_qp : relist.qp listedQP = relistedQP := by
  unfold Relabel.qp relist listedQP relistedQP Signed.mat Signed.vec Signed.ofPerm
  simp only [QP.mk.injEq]
  refine ⟨?_, ?_, ?_, ?_, ?_, ?_⟩
  · ext i j; fin_cases i <;> fin_cases j <;> simp
  · ext i; fin_cases i <;> simp
  · ext i j; fin_cases i; fin_cases j <;> simp
  · ext i; fin_cases i; simp
  · ext i j; fin_cases i <;> fin_cases j <;> simp
  · ext i; fin_cases i <;> simp

theorem listedQP_convex : listedQP.Convex := by
  refine ⟨Matrix.IsSymm.ext fun i j => ?_, fun z => ?_⟩
  · fin_cases i <;> fin_cases j <;> simp [listedQP]
  · simp [listedQP, mulVec, dotProduct, Fin.sum_univ_two]
    nlinarith [mul_self_nonneg (z 0), mul_self_nonneg (z 1)]

theorem relist_first (w : Fin 2 → ℝ) : relist.z.vec w 0 = -w 1 := by simp [relist, Signed.vec]

/-- The hypotheses of C59 are met: two ways to write down a problem, and a guess that is not a solution. -/
example (junk : DenseJunk ℝ) (o : Params ℝ) (ho : o.InRange) :
    let s := FBstabDense.made junk 2 1 2 o
    let x := guessOf (nz := 2) (nl := 1) (nv := 2) ![5, 7] ![1] ![2, 3]
    let x' := guessOf (nz := 2) (nl := 1) (nv := 2) ![-7, 5] ![-1] ![3, 2]
    (s.solve relistedQP.toDense x').result = (s.solve listedQP.toDense x).result ∧
    ∀ out, (s.solve listedQP.toDense x).result = .ok out →
      (s.returnedPoint relistedQP.toDense x').z.fn (0 : Fin 2) =
        -(s.returnedPoint listedQP.toDense x).z.fn (1 : Fin 2) := by
  intro s x x'
  obtain ⟨g1, g2, g3⟩ := guessOf_point (nz := 2) (nl := 1) (nv := 2) ![5, 7] ![1] ![2, 3]
  obtain ⟨g1', g2', g3'⟩ := guessOf_point (nz := 2) (nl := 1) (nv := 2) ![-7, 5] ![-1] ![3, 2]
  have hq : s.qp listedQP.toDense = listedQP := FBstabDense.made_qp junk _ _
  have hq' : s.qp relistedQP.toDense = relistedQP := FBstabDense.made_qp junk _ _
  obtain ⟨-, h2, h3⟩ := C59_dense s (FBstabDense.made_reachable junk _ (by norm_num) (by norm_num)
    (by norm_num [intLimit]) ho) relist listedQP.toDense relistedQP.toDense x x' (listedQP.toDense_fits _ _ _)
    (relistedQP.toDense_fits _ _ _) (guessOf_writable _ _ _ _) (guessOf_writable _ _ _ _)
    (hq ▸ listedQP_convex) (by rw [hq, hq']; exact relist_qp.symm)
    (by
      refine g1'.trans ((?_ : _ = relist.z.vec ![5, 7]).trans (congrArg relist.z.vec g1.symm))
      ext i; fin_cases i <;> simp [relist, Signed.vec])
    (by
      refine g2'.trans ((?_ : _ = relist.l.vec ![1]).trans (congrArg relist.l.vec g2.symm))
      ext i; fin_cases i; simp [relist, Signed.vec])
    (by
      refine g3'.trans ((?_ : _ = (![2, 3] : Fin 2 → ℝ) ∘ relist.v).trans (congrArg (fun w : Fin 2 → ℝ => w ∘ relist.v) g3.symm))
      ext i; fin_cases i <;> simp [relist])
  refine ⟨h2, fun out ho => ?_⟩
  rw [(h3 out ho).1]
  exact relist_first _

/-- The hypotheses are met for every convex optimal control problem, every new order and every guess. -/
example (junk : MpcJunk ℝ) {N nx nu nc : Nat} (o : Params ℝ) (hN : 0 < N)
    (hx : 0 < nx) (hu : 0 < nu) (hc : 0 < nc) (h1 : (nx + nu) * (N + 1) < intLimit)
    (h2 : nc * (N + 1) < intLimit) (ho : o.InRange) (g : StageRelabel N nx nu nc) (p : Ocp N nx nu nc)
    (hp : p.Convex) (z l v) :
    let s := FBstabMpc.made junk N nx nu nc o
    (s.solve (g.ocp p).toMpc (fullGuessOf (g.stacked.z.vec z) (g.stacked.l.vec l) (v ∘ g.stacked.v))).result =
      (s.solve p.toMpc (fullGuessOf z l v)).result := by
  intro s
  obtain ⟨g1, g2, g3⟩ := fullGuessOf_point z l v
  obtain ⟨g1', g2', g3'⟩ := fullGuessOf_point (g.stacked.z.vec z) (g.stacked.l.vec l) (v ∘ g.stacked.v)
  have hq : s.ocp p.toMpc = p := FBstabMpc.made_ocp junk _ _
  have hq' : s.ocp (g.ocp p).toMpc = g.ocp p := FBstabMpc.made_ocp junk _ _
  exact (C59_mpc s (FBstabMpc.made_reachable junk o hN hx hu hc h1 h2 ho) g p.toMpc (g.ocp p).toMpc
    _ _ (p.toMpc_fits _ _ _) ((g.ocp p).toMpc_fits _ _ _) p.toMpc_columns (g.ocp p).toMpc_columns (by rw [hq]; exact hp)
    (by rw [hq, hq']; rfl) (g1'.trans (congrArg g.stacked.z.vec g1.symm))
    (g2'.trans (congrArg g.stacked.l.vec g2.symm))
    (g3'.trans (congrArg (· ∘ g.stacked.v) g3.symm))).2.1

end Fbstab
