import Verif.Proofs.Padding
import Verif.Props.AgreementLog
import Verif.Proofs.WitnessMpc
import Verif.Proofs.Runs
import Verif.Props.OriginMatters

/-!
# C72: constraints that restrict nothing change nothing
-/

namespace Fbstab
open Matrix

/-- C72, for the method. -/
theorem C72_method {nz nl nv nv' : Nat} (g : Padding nv nv') {q : QP nz nl nv} (hz : 0 < nz) {o : Params ℝ}
    (ho : o.InRange) (hr : o.relTol = 0) (hst : o.stallTol < 1) {x : PD nz nl nv} {sub : ℝ} {r : Method.Result nz nl nv}
    (h : Method.Run q o x sub r) : Method.Run (g.qp q) o (g.point x) sub (g.result r) :=
  Method.run_pad g hz hr hst (le_trans (by norm_num) ho.infeasTol) h

theorem Method.pad_pair {nz nl nv nv' : Nat} (g : Padding nv nv') {q : QP nz nl nv} (hz : 0 < nz) {o : Params ℝ}
    (ho : o.InRange) (hr : o.relTol = 0) (hst : o.stallTol < 1) (hc : q.Convex) {x : PD nz nl nv} {sub sub' : ℝ}
    {r : Method.Result nz nl nv} {r' : Method.Result nz nl nv'} (h : Method.Run q o x sub r)
    (h' : Method.Run (g.qp q) o (g.point x) sub' r') :
    r'.value = r.value.map (fun w => (w.1, g.point w.2)) ∧ r'.log.map Msg.blank = r.log.map Msg.blank ∧
      (sub' = sub → r'.log = r.log) := by
  obtain ⟨r2, e1, e2, e3⟩ := h.other sub'
  have e := C54_unique (g.convex _ hc) ho h' (C72_method g hz ho hr hst e1)
  refine ⟨?_, ?_, ?_⟩
  · rw [e, ← e2]; rfl
  · rw [e, ← e3]; rfl
  · rintro rfl
    rw [C54_unique (g.convex _ hc) ho h' (C72_method g hz ho hr hst h)]; rfl

/-- C72: let `p'` be the problem `p` with additional constraints `0 z <= bound`, with nonnegative bounds, anywhere among
the others, and let `s'` be a `FBstabDense` object for that many constraints.  If the tolerance does not depend on the
data and the guess for the new multipliers is 0, then `Solve` returns the same report (or throws the same exception) and
prints the same lines, up to the leftover in the line about iterate 0; the points are the same, with multiplier 0 and
`y = bound` for the new constraints. -/
theorem C72_dense (s s' : FBstabDense ℝ) (hs : s.Reachable) (hs' : s'.Reachable) (hz : s'.nz = s.nz) (hl : s'.nl = s.nl)
    (hopt : s'.options = s.options) (g : Padding s.nv s'.nv) (p p' : DenseProblem ℝ) (x x' : CallerVar ℝ)
    (hf : DenseFits s.nz s.nl s.nv p x) (hf' : DenseFits s.nz s.nl s'.nv p' x')
    (hy : x.YWritable s.nv) (hy' : x'.YWritable s'.nv) (hc : (s.qp p).Convex)
    (hp : QP.ofDense (p'.toData s.nz s.nl s'.nv) = g.qp (s.qp p)) (hnz : 0 < s.nz)
    (hr : s.options.relTol = 0) (hst : s.options.stallTol < 1)
    (gz : (x'.z.toVec s.nz).fn = (x.z.toVec s.nz).fn) (gl : (x'.l.toVec s.nl).fn = (x.l.toVec s.nl).fn)
    (gv : (x'.v.toVec s'.nv).fn = g.vec (x.v.toVec s.nv).fn) :
    (s'.solve p' x').result = (s.solve p x).result ∧
    (s'.solve p' x').log.map Msg.blank = (s.solve p x).log.map Msg.blank ∧
    (s.options.displayLevel ≠ .iter → (s'.solve p' x').log = (s.solve p x).log) ∧
    ∀ out, (s.solve p x).result = .ok out →
      let xr := (s.solve p x).x.point s.nz s.nl s.nv
      let xr' := (s'.solve p' x').x.point s.nz s.nl s'.nv
      xr'.z.fn = xr.z.fn ∧ xr'.l.fn = xr.l.fn ∧
      (∀ k, xr'.v (g.row k) = xr.v k ∧ xr'.y (g.row k) = xr.y k) ∧
      ∀ i, (¬∃ k, g.row k = i) → xr'.v i = 0 ∧ xr'.y i = g.bound i := by
  obtain ⟨nz, nl, nv, mem⟩ := s
  obtain ⟨nz', nl', nv', mem'⟩ := s'
  dsimp only at hz hl
  subst hz hl
  change Padding nv nv' at g
  have ho : mem.opts.InRange := C01_reachable_dense _ hs
  have hopt : mem'.opts = mem.opts := hopt
  have hp' : FBstabDense.qp (⟨nz', nl', nv', mem'⟩ : FBstabDense ℝ) p' = g.qp (QP.ofDense (p.toData nz' nl' nv)) := hp
  obtain ⟨sub, r, h1, -, h2, h3⟩ := C54_dense _ hs p x hf hy hc
  obtain ⟨sub', r', k1, -, k2, k3⟩ := C54_dense _ hs' p' x' hf' hy' (by rw [hp']; exact g.convex _ hc)
  rw [hp'] at k1
  change Method.Run _ mem'.opts _ sub' r' at k1
  rw [hopt] at k1
  have k1' : Method.Run (g.qp (QP.ofDense (p.toData nz' nl' nv))) mem.opts (g.point ⟨(x.z.toVec nz').fn, (x.l.toVec nl').fn, (x.v.toVec nv).fn⟩) sub' r' := by
    have e : (⟨(x'.z.toVec nz').fn, (x'.l.toVec nl').fn, (x'.v.toVec nv').fn⟩ : PD nz' nl' nv') =
        g.point ⟨(x.z.toVec nz').fn, (x.l.toVec nl').fn, (x.v.toVec nv).fn⟩ := by
      rw [gz, gl, gv]; rfl
    rw [← e]; exact k1
  obtain ⟨e1, e2, -⟩ := Method.pad_pair g hnz ho hr hst hc h1 k1'
  change _ = r'.log.filter (Method.visible mem'.opts.displayLevel) at k2
  change _ = r.log.filter (Method.visible mem.opts.displayLevel) at h2
  rw [hopt] at k2
  refine ⟨?_, ?_, ?_, ?_⟩
  · revert h3 k3
    rw [e1]
    cases r.value with
    | none => rintro ⟨h3, -⟩ ⟨k3, -⟩; rw [h3, k3]
    | some w => rintro ⟨h3, -⟩ ⟨k3, -⟩; rw [h3, k3]
  · rw [h2, k2, Method.filter_blank, Method.filter_blank, e2]
  · intro (hd : mem.opts.displayLevel ≠ .iter)
    rw [h2, k2, ← Method.map_blank_eq hd r'.log, ← Method.map_blank_eq hd r.log, Method.filter_blank,
      Method.filter_blank, e2]
  · intro out h xr xr'
    revert h3 k3
    rw [e1]
    cases r.value with
    | none => rintro ⟨h3, -⟩; rw [h3] at h; cases h
    | some w =>
      rintro ⟨-, a1, a2, a3, a4⟩ ⟨-, b1, b2, b3, b4⟩
      have b1 : xr'.z.fn = w.2.z := b1
      have b2 : xr'.l.fn = w.2.l := b2
      have b3 : xr'.v.fn = g.vec w.2.v := b3
      rw [hp', ] at b4
      have b4 : xr'.y.fn = (g.qp _).b - (g.qp _).A *ᵥ w.2.z := b4
      rw [g.mulA] at b4
      refine ⟨b1.trans a1.symm, b2.trans a2.symm, fun k => ⟨?_, ?_⟩, fun i hi => ⟨?_, ?_⟩⟩
      · have := congrFun b3 (g.row k)
        rw [g.vec_row] at this
        exact this.trans (congrFun a3 k).symm
      · have := congrFun b4 (g.row k)
        rw [Pi.sub_apply, g.vec_row, g.b_row] at this
        exact this.trans (congrFun a4 k).symm
      · have := congrFun b3 i
        rw [g.vec_new _ hi] at this
        exact this
      · have := congrFun b4 i
        rw [Pi.sub_apply, g.vec_new _ hi, g.b_new _ hi, sub_zero] at this
        exact this

/-- C72 for `FBstabMpc`, which wants the same number of constraints in every stage: let `p` be an optimal control problem
in which some constraints, in any stages, are `0 x + 0 u <= bound`.  `FBstabMpc::Solve` does with it what
`FBstabDense::Solve` does with the problem without these constraints. -/
theorem C72_mpc (s : FBstabMpc ℝ) (sd : FBstabDense ℝ) (hs : s.Reachable) (hsd : sd.Reachable)
    (hz : sd.nz = (s.N + 1) * (s.nx + s.nu)) (hl : sd.nl = (s.N + 1) * s.nx) (hopt : sd.options = s.options)
    (g : Padding sd.nv ((s.N + 1) * s.nc)) (p : MpcProblem ℝ) (d : DenseProblem ℝ) (x xd : CallerVar ℝ)
    (hf : MpcFits s.N s.nx s.nu s.nc p x) (hcol : p.Columns)
    (hfd : DenseFits ((s.N + 1) * (s.nx + s.nu)) ((s.N + 1) * s.nx) sd.nv d xd) (hy : xd.YWritable sd.nv)
    (hc : (s.ocp p).Convex)
    (hp : s.qp p = g.qp (QP.ofDense (d.toData ((s.N + 1) * (s.nx + s.nu)) ((s.N + 1) * s.nx) sd.nv)))
    (hnz : 0 < s.nx + s.nu) (hr : s.options.relTol = 0) (hst : s.options.stallTol < 1)
    (gz : (x.z.toVec ((s.N + 1) * (s.nx + s.nu))).fn = (xd.z.toVec _).fn)
    (gl : (x.l.toVec ((s.N + 1) * s.nx)).fn = (xd.l.toVec _).fn)
    (gv : (x.v.toVec ((s.N + 1) * s.nc)).fn = g.vec (xd.v.toVec sd.nv).fn) :
    (s.solve p x).result = (sd.solve d xd).result ∧
    (s.solve p x).log.map Msg.blank = (sd.solve d xd).log.map Msg.blank ∧
    (s.options.displayLevel ≠ .iter → (s.solve p x).log = (sd.solve d xd).log) ∧
    ∀ out, (sd.solve d xd).result = .ok out →
      let xr := (sd.solve d xd).x.point ((s.N + 1) * (s.nx + s.nu)) ((s.N + 1) * s.nx) sd.nv
      let xr' := (s.solve p x).x.point ((s.N + 1) * (s.nx + s.nu)) ((s.N + 1) * s.nx) ((s.N + 1) * s.nc)
      xr'.z.fn = xr.z.fn ∧ xr'.l.fn = xr.l.fn ∧
      (∀ k, xr'.v (g.row k) = xr.v k ∧ xr'.y (g.row k) = xr.y k) ∧
      ∀ i, (¬∃ k, g.row k = i) → xr'.v i = 0 ∧ xr'.y i = g.bound i := by
  obtain ⟨nz, nl, nv, mem⟩ := sd
  dsimp only at hz hl
  subst hz hl
  change Padding nv ((s.N + 1) * s.nc) at g
  change mem.opts = s.options at hopt
  change s.qp p = g.qp (QP.ofDense (d.toData ((s.N + 1) * (s.nx + s.nu)) ((s.N + 1) * s.nx) nv)) at hp
  have ho := C01_reachable_mpc _ hs
  have hcq : (s.qp p).Convex := (C29_convex _).2 hc
  have hcd : (QP.ofDense (d.toData ((s.N + 1) * (s.nx + s.nu)) ((s.N + 1) * s.nx) nv)).Convex := by
    have h : (g.qp (QP.ofDense (d.toData ((s.N + 1) * (s.nx + s.nu)) ((s.N + 1) * s.nx) nv))).Convex :=
      hp ▸ hcq
    exact ⟨h.symm, h.nonneg⟩
  obtain ⟨sub, r, h1, -, h2, h3⟩ := C54_dense
    (⟨(s.N + 1) * (s.nx + s.nu), (s.N + 1) * s.nx, nv, mem⟩ : FBstabDense ℝ) hsd d xd hfd hy hcd
  obtain ⟨sub', r', k1, -, k2, k3⟩ := C54_mpc s hs p x hf hcol hc
  rw [hp, ← hopt] at k1
  rw [← hopt] at ho hr hst
  rw [← hopt] at k2
  rw [← hopt]
  have k1' : Method.Run (g.qp (QP.ofDense (d.toData ((s.N + 1) * (s.nx + s.nu)) ((s.N + 1) * s.nx) nv)))
      mem.opts (g.point ⟨(xd.z.toVec ((s.N + 1) * (s.nx + s.nu))).fn,
      (xd.l.toVec ((s.N + 1) * s.nx)).fn, (xd.v.toVec nv).fn⟩) sub' r' := by
    have e : (⟨(x.z.toVec _).fn, (x.l.toVec _).fn, (x.v.toVec _).fn⟩ :
        PD ((s.N + 1) * (s.nx + s.nu)) ((s.N + 1) * s.nx) ((s.N + 1) * s.nc)) =
        g.point ⟨(xd.z.toVec _).fn, (xd.l.toVec _).fn, (xd.v.toVec nv).fn⟩ := by
      rw [gz, gl, gv]; rfl
    rw [← e]; exact k1
  change _ = r.log.filter (Method.visible mem.opts.displayLevel) at h2
  obtain ⟨e1, e2, -⟩ := Method.pad_pair g (Nat.mul_pos (Nat.succ_pos _) hnz) ho hr hst hcd h1 k1'
  refine ⟨?_, ?_, ?_, ?_⟩
  · revert h3 k3
    rw [e1]
    cases r.value with
    | none => rintro ⟨h3, -⟩ ⟨k3, -⟩; rw [h3, k3]
    | some w => rintro ⟨h3, -⟩ ⟨k3, -⟩; rw [h3, k3]
  · rw [h2, k2, Method.filter_blank, Method.filter_blank, e2]
  · intro hd
    rw [h2, k2, ← Method.map_blank_eq hd r'.log, ← Method.map_blank_eq hd r.log, Method.filter_blank,
      Method.filter_blank, e2]
  · intro out h xr xr'
    revert h3 k3
    rw [e1]
    cases r.value with
    | none => rintro ⟨h3, -⟩; rw [h3] at h; cases h
    | some w =>
      rintro ⟨-, a1, a2, a3, a4⟩ ⟨-, b1, b2, b3, b4⟩
      have b1 : xr'.z.fn = w.2.z := b1
      have b2 : xr'.l.fn = w.2.l := b2
      have b3 : xr'.v.fn = g.vec w.2.v := b3
      rw [hp] at b4
      have b4 : xr'.y.fn = (g.qp _).b - (g.qp _).A *ᵥ w.2.z := b4
      rw [g.mulA] at b4
      refine ⟨b1.trans a1.symm, b2.trans a2.symm, fun k => ⟨?_, ?_⟩, fun i hi => ⟨?_, ?_⟩⟩
      · have := congrFun b3 (g.row k)
        rw [g.vec_row] at this
        exact this.trans (congrFun a3 k).symm
      · have := congrFun b4 (g.row k)
        rw [Pi.sub_apply, g.vec_row, g.b_row] at this
        exact this.trans (congrFun a4 k).symm
      · have := congrFun b3 i
        rw [g.vec_new _ hi] at this
        exact this
      · have := congrFun b4 i
        rw [Pi.sub_apply, g.vec_new _ hi, g.b_new _ hi, sub_zero] at this
        exact this

/-- If the rows that are not kept restrict nothing, a problem is the kept problem with additional constraints. -/
theorem QP.keep_padding {nz nl nv nv' : Nat} (q : QP nz nl nv') (row : Fin nv → Fin nv') (inj : Function.Injective row)
    (h : ∀ i, (¬∃ k, row k = i) → q.Vacuous i) :
    ∃ g : Padding nv nv', g.row = row ∧ q = g.qp (q.keep row) ∧ ∀ i, (¬∃ k, row k = i) → g.bound i = q.b i := by
  refine ⟨⟨row, inj, fun i => max (q.b i) 0, fun i => le_max_right _ _⟩, rfl, ?_,
    fun i hi => max_eq_left (h i hi).2⟩
  have eA : q.A = of fun i j => Function.extend row (fun k => q.A (row k) j) 0 i := by
    ext i j
    rw [of_apply]
    rcases em (∃ k, row k = i) with ⟨k, rfl⟩ | hn
    · rw [inj.extend_apply]
    · rw [Function.extend_apply' _ _ _ hn, (h i hn).1 j]; rfl
  have eb : q.b = Function.extend row (fun k => q.b (row k)) fun i => max (q.b i) 0 := by
    funext i
    rcases em (∃ k, row k = i) with ⟨k, rfl⟩ | hn
    · rw [inj.extend_apply]
    · rw [Function.extend_apply' _ _ _ hn, max_eq_left (h i hn).2]
  obtain ⟨H, f, G, h', A, b⟩ := q
  simp only [Padding.qp, QP.keep, Padding.vec, QP.mk.injEq, true_and]
  exact ⟨eA, eb⟩

/-- C72 for `FBstabMpc`, the other way round: constraints that restrict nothing may be dropped, and what remains be solved
by `FBstabDense`. -/
theorem C72_drop_mpc (s : FBstabMpc ℝ) (sd : FBstabDense ℝ) (hs : s.Reachable) (hsd : sd.Reachable)
    (hz : sd.nz = (s.N + 1) * (s.nx + s.nu)) (hl : sd.nl = (s.N + 1) * s.nx) (hopt : sd.options = s.options)
    (row : Fin sd.nv → Fin ((s.N + 1) * s.nc)) (inj : Function.Injective row) (p : MpcProblem ℝ) (d : DenseProblem ℝ)
    (x xd : CallerVar ℝ) (hf : MpcFits s.N s.nx s.nu s.nc p x) (hcol : p.Columns)
    (hfd : DenseFits ((s.N + 1) * (s.nx + s.nu)) ((s.N + 1) * s.nx) sd.nv d xd) (hy : xd.YWritable sd.nv)
    (hc : (s.ocp p).Convex) (hvac : ∀ i, (¬∃ k, row k = i) → (s.qp p).Vacuous i)
    (hp : QP.ofDense (d.toData ((s.N + 1) * (s.nx + s.nu)) ((s.N + 1) * s.nx) sd.nv) = (s.qp p).keep row)
    (hnz : 0 < s.nx + s.nu) (hr : s.options.relTol = 0) (hst : s.options.stallTol < 1)
    (gz : (x.z.toVec ((s.N + 1) * (s.nx + s.nu))).fn = (xd.z.toVec _).fn)
    (gl : (x.l.toVec ((s.N + 1) * s.nx)).fn = (xd.l.toVec _).fn)
    (gv : ∀ k, x.v.toVec ((s.N + 1) * s.nc) (row k) = xd.v.toVec sd.nv k)
    (gv' : ∀ i, (¬∃ k, row k = i) → x.v.toVec ((s.N + 1) * s.nc) i = 0) :
    (s.solve p x).result = (sd.solve d xd).result ∧
    (s.options.displayLevel ≠ .iter → (s.solve p x).log = (sd.solve d xd).log) ∧
    ∀ out, (sd.solve d xd).result = .ok out →
      let xr := (sd.solve d xd).x.point ((s.N + 1) * (s.nx + s.nu)) ((s.N + 1) * s.nx) sd.nv
      let xr' := (s.solve p x).x.point ((s.N + 1) * (s.nx + s.nu)) ((s.N + 1) * s.nx) ((s.N + 1) * s.nc)
      xr'.z.fn = xr.z.fn ∧ xr'.l.fn = xr.l.fn ∧
      (∀ k, xr'.v (row k) = xr.v k ∧ xr'.y (row k) = xr.y k) ∧
      ∀ i, (¬∃ k, row k = i) → xr'.v i = 0 ∧ xr'.y i = (s.qp p).b i := by
  obtain ⟨g, rfl, hq, hb⟩ := (s.qp p).keep_padding row inj hvac
  obtain ⟨h1, -, h2, h3⟩ := C72_mpc s sd hs hsd hz hl hopt g p d x xd hf hcol hfd hy hc (by rw [hp]; exact hq) hnz hr hst
    gz gl (g.ext_vec gv gv')
  refine ⟨h1, h2, fun out h => ?_⟩
  obtain ⟨a, b, c, e⟩ := h3 out h
  exact ⟨a, b, c, fun i hi => ⟨(e i hi).1, (e i hi).2.trans (hb i hi)⟩⟩

/-- In an optimal control problem: a constraint of a stage with zero coefficients and a constant `d <= 0`. -/
theorem Ocp.vacuous {N nx nu nc : Nat} (p : Ocp N nx nu nc) {i : Fin (N + 1)} {j : Fin nc} (hE : ∀ k, p.E i j k = 0)
    (hL : ∀ k, p.L i j k = 0) (hd : p.d i j ≤ 0) : p.toQP.Vacuous (flatIdx i j) := by
  refine ⟨fun a => ?_, ?_⟩
  · simp only [Ocp.toQP, of_apply, block_flatIdx]
    split
    · rcases h : (Ocp.stage a).2 with k | k
      · exact hE k
      · exact hL k
    · rfl
  · simp only [Ocp.toQP, block_flatIdx]
    linarith

/-! ### With a relative tolerance the bounds of the new constraints count -/

theorem Padding.forcing_large {nz nl nv nv' : Nat} {q : QP nz nl nv} (g : Padding nv nv') {i : Fin nv'}
    (hi : ¬∃ k, g.row k = i) {B : ℝ} (hB : 0 ≤ B) (h : g.bound i = B) : B ≤ (g.qp q).forcing :=
  QP.le_forcing _ (.inr (.inr ⟨i, by rw [g.b_new _ hi, h, abs_of_nonneg hB]⟩))

theorem Core.residualNorm_eq {nz nl nv : Nat} {q : QP nz nl nv} {E : Core.Env ℝ nz nl nv} (I : q.Implements E.ops)
    {x : Point ℝ nz nl nv} (hm : Core.Marg q x) :
    residualNorm E.ops E.opts.alpha x = (Method.residual q E.opts ⟨x.z.fn, x.l.fn, x.v.fn⟩).norm := by
  have e : Core.Resid.norm (E.penRes x) = residualNorm E.ops E.opts.alpha x := rfl
  rw [← e, Method.partsOf_norm, Method.residual_eq I hm]
  rfl

/-- C72: the hypothesis on the tolerance is necessary.  Let the relative tolerance be positive, as by default.  Whatever
the problem and the guess, however far from a solution: if one adds constraints `0 z <= bound` with large enough bounds,
`FBstabDense::Solve` returns SUCCESS with zero iterations and the guess unchanged. -/
theorem C72_not_dense (s : FBstabDense ℝ) (hs : s.Reachable) (hr : 0 < s.options.relTol)
    (hm : ¬s.options.innerTolMax < s.options.innerTolMin) {nv : Nat} (row : Fin nv → Fin s.nv)
    (inj : Function.Injective row) (i0 : Fin s.nv) (hi : ¬∃ k, row k = i0) (q : QP s.nz s.nl nv) (x : PD s.nz s.nl nv) :
    ∃ g : Padding nv s.nv, g.row = row ∧ ∀ (p : DenseProblem ℝ) (x' : CallerVar ℝ), DenseFits s.nz s.nl s.nv p x' →
      x'.YWritable s.nv → s.qp p = g.qp q →
      ⟨(x'.z.toVec s.nz).fn, (x'.l.toVec s.nl).fn, (x'.v.toVec s.nv).fn⟩ = g.point x →
      let r := (Method.residual q s.options x).norm
      (s.solve p x').result = .ok ⟨.success, r, 0, 0, r⟩ ∧
      (s.solve p x').x.z = x'.z ∧ (s.solve p x').x.l = x'.l ∧ (s.solve p x').x.v = x'.v := by
  have ho := C01_reachable_dense s hs
  have hab : (0 : ℝ) ≤ s.options.absTol := le_trans (by norm_num) ho.absTol
  set R := (Method.residual q s.options x).norm with hR
  have hB : 0 ≤ R / s.options.relTol := div_nonneg (Real.sqrt_nonneg _) hr.le
  let g : Padding nv s.nv := ⟨row, inj, fun _ => R / s.options.relTol, fun _ => hB⟩
  refine ⟨g, rfl, fun p x' hf hy hp hx => ?_⟩
  have J := (s.realEnv p).ops
  rw [hp] at J
  have e : residualNorm (s.problem p) s.options.alpha (x'.guess (s.problem p)) = R :=
    (Core.residualNorm_eq (E := s.env p) J (CallerVar.guess_margin J x')).trans (by
      show (Method.residual (g.qp q) s.options
        ⟨(x'.z.toVec s.nz).fn, (x'.l.toVec s.nl).fn, (x'.v.toVec s.nv).fn⟩).norm = R
      rw [hx, Method.residual_pad])
  have et : stoppingTol (s.problem p) s.options = s.options.absTol + s.options.relTol * (1 + (g.qp q).forcing) := by
    have : (s.problem p).forcingNorm = (g.qp q).forcing := J.forcingNorm
    rw [stoppingTol, this]
  have hle : residualNorm (s.problem p) s.options.alpha (x'.guess (s.problem p)) ≤
      stoppingTol (s.problem p) s.options := by
    rw [e, et]
    exact tolerance_large hab hr (g.forcing_large hi hB rfl)
  obtain ⟨h1, h2, h3, h4, -⟩ := C12_dense s p x' ho.maxProxIters hm hf hy hle
  rw [e] at h1
  exact ⟨h1, h2, h3, h4⟩

/-- C72, the hypothesis on the tolerance is necessary for `FBstabMpc` as well. -/
theorem C72_not_mpc (s : FBstabMpc ℝ) (hs : s.Reachable) (hr : 0 < s.options.relTol)
    (hm : ¬s.options.innerTolMax < s.options.innerTolMin) {nv : Nat} (row : Fin nv → Fin ((s.N + 1) * s.nc))
    (inj : Function.Injective row) (i0 : Fin ((s.N + 1) * s.nc)) (hi : ¬∃ k, row k = i0)
    (q : QP ((s.N + 1) * (s.nx + s.nu)) ((s.N + 1) * s.nx) nv)
    (x : PD ((s.N + 1) * (s.nx + s.nu)) ((s.N + 1) * s.nx) nv) :
    ∃ g : Padding nv ((s.N + 1) * s.nc), g.row = row ∧ ∀ (p : MpcProblem ℝ) (x' : CallerVar ℝ),
      MpcFits s.N s.nx s.nu s.nc p x' → p.Columns → s.qp p = g.qp q →
      ⟨(x'.z.toVec _).fn, (x'.l.toVec _).fn, (x'.v.toVec _).fn⟩ = g.point x →
      let r := (Method.residual q s.options x).norm
      (s.solve p x').result = .ok ⟨.success, r, 0, 0, r⟩ ∧
      (s.solve p x').x.z = x'.z ∧ (s.solve p x').x.l = x'.l ∧ (s.solve p x').x.v = x'.v := by
  have ho := C01_reachable_mpc s hs
  have hab : (0 : ℝ) ≤ s.options.absTol := le_trans (by norm_num) ho.absTol
  set R := (Method.residual q s.options x).norm with hR
  have hB : 0 ≤ R / s.options.relTol := div_nonneg (Real.sqrt_nonneg _) hr.le
  let g : Padding nv ((s.N + 1) * s.nc) := ⟨row, inj, fun _ => R / s.options.relTol, fun _ => hB⟩
  refine ⟨g, rfl, fun p x' hf hcol hp hx => ?_⟩
  have J := (s.realEnv p).ops
  rw [hp] at J
  have e : residualNorm (s.problem p) s.options.alpha (x'.guess (s.problem p)) = R :=
    (Core.residualNorm_eq (E := s.env real_zero_beq p) J (CallerVar.guess_margin J x')).trans (by
      show (Method.residual (g.qp q) s.options
        ⟨(x'.z.toVec _).fn, (x'.l.toVec _).fn, (x'.v.toVec _).fn⟩).norm = R
      rw [hx, Method.residual_pad])
  have et : stoppingTol (s.problem p) s.options = s.options.absTol + s.options.relTol * (1 + (g.qp q).forcing) := by
    have : (s.problem p).forcingNorm = (g.qp q).forcing := J.forcingNorm
    rw [stoppingTol, this]
  have hle : residualNorm (s.problem p) s.options.alpha (x'.guess (s.problem p)) ≤
      stoppingTol (s.problem p) s.options := by
    rw [e, et]
    exact tolerance_large hab hr (g.forcing_large hi hB rfl)
  obtain ⟨h1, h2, h3, h4, -⟩ := C12_mpc real_zero_beq s p x' ho.maxProxIters hm hf hcol hle
  rw [e] at h1
  exact ⟨h1, h2, h3, h4⟩

/-! ### Concrete cases -/

/-- One constraint between two that restrict nothing. -/
noncomputable def middle : Padding 1 3 := ⟨fun _ => 1, fun _ _ _ => Subsingleton.elim _ _, fun _ => 7, fun _ => by norm_num⟩

theorem middle_new {i : Fin 3} (h : i = 0 ∨ i = 2) : ¬∃ k, middle.row k = i := by
  rintro ⟨k, hk⟩
  rw [show middle.row k = 1 from rfl] at hk
  rcases h with h | h <;> rw [h] at hk <;> revert hk <;> decide

/-- C72_dense: the run with one proximal iteration, with two constraints more. -/
example (junk junk' : DenseJunk ℝ) (c : Bool) (d : Display) :
    let s' := FBstabDense.made junk' 1 0 3 (runOptions c d)
    let x' : CallerVar ℝ := guessOf (nz := 1) (nl := 0) (nv := 3) (fun _ => -1e-4) 0 0
    ∃ out, (s'.solve (middle.qp halfQP).toDense x').result = .ok out ∧ out.eflag = .success ∧ out.proxIters = 1 ∧
      ((s'.solve (middle.qp halfQP).toDense x').x.point 1 0 3).v (0 : Fin 3) = 0 ∧
      ((s'.solve (middle.qp halfQP).toDense x').x.point 1 0 3).y (2 : Fin 3) = 7 := by
  intro s' x'
  obtain ⟨out, h1, h2, h3, -⟩ := run_dense junk c d
  have hs' : s'.Reachable :=
    FBstabDense.made_reachable junk' _ (by norm_num) (by norm_num) (by norm_num [intLimit]) (runOptions_inRange c d)
  have hq : (runSolver junk c d).qp halfQP.toDense = halfQP := runSolver_qp junk c d
  have hq' : s'.qp (middle.qp halfQP).toDense = middle.qp halfQP := FBstabDense.made_qp junk' _ _
  obtain ⟨g1, g2, g3⟩ := guessOf_point (nz := 1) (nl := 0) (nv := 1) (fun _ => -1e-4) 0 0
  obtain ⟨g1', g2', g3'⟩ := guessOf_point (nz := 1) (nl := 0) (nv := 3) (fun _ => -1e-4) 0 0
  obtain ⟨k1, -, -, k2⟩ := C72_dense (runSolver junk c d) s' (runSolver_reachable junk c d) hs' rfl rfl rfl middle
    halfQP.toDense (middle.qp halfQP).toDense runGuess x' (halfQP.toDense_fits _ _ _)
    ((middle.qp halfQP).toDense_fits _ _ _) (guessOf_writable _ _ _ _) (guessOf_writable _ _ _ _)
    (by rw [hq]; exact halfQP_convex) (hq'.trans (congrArg middle.qp hq).symm) (by show 0 < 1; norm_num) rfl
    (by show (1e-10 : ℝ) < 1; norm_num) (g1'.trans g1.symm) (g2'.trans g2.symm)
    (g3'.trans ((middle.ext_vec (x := 0) (y := 0) (fun _ => rfl) (fun _ _ => rfl)).trans
      (congrArg middle.vec g3.symm)))
  obtain ⟨-, -, -, k3⟩ := k2 out h1
  exact ⟨out, k1.trans h1, h2, h3, (k3 (0 : Fin 3) (middle_new (.inl rfl))).1, (k3 (2 : Fin 3) (middle_new (.inr rfl))).2⟩

/-- C72_not_dense: the default options, the problem of the last example and the guess 1. -/
example (junk : DenseJunk ℝ) :
    ∃ (g : Padding 1 3) (r : ℝ), ((FBstabDense.made junk 1 0 3 (Params.defaults : Params ℝ)).solve (g.qp halfQP).toDense
      (guessOf (nz := 1) (nl := 0) (nv := 3) (fun _ => 1) 0 0)).result = .ok ⟨.success, r, 0, 0, r⟩ := by
  have hs : (FBstabDense.made junk 1 0 3 (Params.defaults : Params ℝ)).Reachable :=
    FBstabDense.made_reachable junk _ (by norm_num) (by norm_num) (by norm_num [intLimit]) defaults_inRange
  obtain ⟨(g : Padding 1 3), hg, h⟩ := C72_not_dense _ hs (by show (0 : ℝ) < 1e-12; norm_num)
    (by show ¬(Params.defaults : Params ℝ).innerTolMax < (Params.defaults : Params ℝ).innerTolMin
        simp only [Params.defaults]; norm_num)
    middle.row middle.inj (0 : Fin 3) (middle_new (.inl rfl)) halfQP ⟨fun _ => 1, 0, 0⟩
  obtain ⟨g1, g2, g3⟩ := guessOf_point (nz := 1) (nl := 0) (nv := 3) (fun _ => 1) 0 0
  refine ⟨g, _, (h (g.qp halfQP).toDense _ ((g.qp halfQP).toDense_fits _ _ _) (guessOf_writable _ _ _ _)
    (FBstabDense.made_qp junk _ _) (PD.ext g1 g2 (g3.trans ?_))).1⟩
  exact g.ext_vec (x := 0) (y := 0) (fun _ => rfl) (fun _ _ => rfl)

/-- C72_drop_mpc: the hypotheses are met for every convex optimal control problem, whichever of its constraints restrict
nothing, if one remains. -/
example (junk : MpcJunk ℝ) (junk' : DenseJunk ℝ) {N nx nu nc nv : Nat} (o : Params ℝ) (hN : 0 < N)
    (hx : 0 < nx) (hu : 0 < nu) (hc : 0 < nc) (h1 : (nx + nu) * (N + 1) < intLimit)
    (h2 : nc * (N + 1) < intLimit) (h3 : (N + 1) * (nx + nu) + (N + 1) * nx < intLimit) (hv : 0 < nv) (ho : o.InRange)
    (hr : o.relTol = 0) (hst : o.stallTol < 1)
    (p : Ocp N nx nu nc) (hp : p.Convex) (row : Fin nv → Fin ((N + 1) * nc)) (inj : Function.Injective row)
    (hvac : ∀ i, (¬∃ k, row k = i) → p.toQP.Vacuous i) (z : Fin ((N + 1) * (nx + nu)) → ℝ)
    (l : Fin ((N + 1) * nx) → ℝ) (v : Fin ((N + 1) * nc) → ℝ) (hv0 : ∀ i, (¬∃ k, row k = i) → v i = 0) :
    ((FBstabMpc.made junk N nx nu nc o).solve p.toMpc (fullGuessOf z l v)).result =
      ((FBstabDense.made junk' ((N + 1) * (nx + nu)) ((N + 1) * nx) nv o).solve (p.toQP.keep row).toDense
        (guessOf z l fun k => v (row k))).result := by
  obtain ⟨g1, g2, g3⟩ := fullGuessOf_point z l v
  obtain ⟨g1', g2', g3'⟩ := guessOf_point z l fun k => v (row k)
  have hq : (FBstabMpc.made junk N nx nu nc o).qp p.toMpc = p.toQP := FBstabMpc.made_qp junk _ _
  have hocp : (FBstabMpc.made junk N nx nu nc o).ocp p.toMpc = p := FBstabMpc.made_ocp junk _ _
  have hqd : (FBstabDense.made junk' ((N + 1) * (nx + nu)) ((N + 1) * nx) nv o).qp (p.toQP.keep row).toDense =
    p.toQP.keep row := FBstabDense.made_qp junk' _ _
  exact (C72_drop_mpc (FBstabMpc.made junk N nx nu nc o) (FBstabDense.made junk' _ _ nv o)
    (FBstabMpc.made_reachable junk o hN hx hu hc h1 h2 ho)
    (FBstabDense.made_reachable junk' o (Nat.mul_pos (Nat.succ_pos _) (by omega)) hv h3 ho) rfl rfl rfl row inj p.toMpc
    (p.toQP.keep row).toDense _ _ (p.toMpc_fits _ _ _) p.toMpc_columns ((p.toQP.keep row).toDense_fits _ _ _)
    (guessOf_writable _ _ _ _) (by rw [hocp]; exact hp) (by rw [hq]; exact hvac)
    (hqd.trans (congrArg (QP.keep · row) hq).symm) (by show 0 < nx + nu; omega) hr hst (g1.trans g1'.symm)
    (g2.trans g2'.symm) (fun k => (congrFun g3 (row k)).trans (congrFun g3' k).symm)
    (fun i hi => (congrFun g3 i).trans (hv0 i hi))).1

end Fbstab
