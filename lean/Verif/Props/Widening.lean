import Verif.Proofs.Widening
import Verif.Props.AgreementLog
import Verif.Proofs.WitnessMpc
import Verif.Proofs.Runs
import Verif.Props.Padding

/-!
# C76: unknowns and equations that play no role change nothing
-/

namespace Fbstab
open Matrix

/-- C76, for the method. -/
theorem C76_method {nz nz' nl nl' nv : Nat} (g : Widening nz nz' nl nl') {q : QP nz nl nv} (hz : 0 < nz) (hz' : 0 < nz')
    {o : Params ℝ} (hst : o.stallTol < 1) {x : PD nz nl nv} {sub : ℝ} {r : Method.Result nz nl nv}
    (h : Method.Run q o x sub r) : Method.Run (g.qp q) o (g.point x) sub (g.result r) :=
  Method.run_widen g hz hz' hst h

theorem Method.widen_pair {nz nz' nl nl' nv : Nat} (g : Widening nz nz' nl nl') {q : QP nz nl nv} (hz : 0 < nz)
    (hz' : 0 < nz') {o : Params ℝ} (ho : o.InRange) (hst : o.stallTol < 1) (hc : q.Convex) {x : PD nz nl nv} {sub sub' : ℝ}
    {r : Method.Result nz nl nv} {r' : Method.Result nz' nl' nv} (h : Method.Run q o x sub r)
    (h' : Method.Run (g.qp q) o (g.point x) sub' r') :
    r'.value = r.value.map (fun w => (w.1, g.point w.2)) ∧ r'.log.map Msg.blank = r.log.map Msg.blank := by
  obtain ⟨r2, e1, e2, e3⟩ := h.other sub'
  have e := C54_unique (g.convex _ hc) ho h' (C76_method g hz hz' hst e1)
  refine ⟨?_, ?_⟩
  · rw [e, ← e2]; rfl
  · rw [e, ← e3]; rfl

/-- C76: let `p'` be the problem `p` with additional unknowns, which occur nowhere except with a nonnegative quadratic
cost of their own, and additional equations `0 z = 0`, anywhere among the others, and let `s'` be a `FBstabDense` object
of that size.  If the guesses for the new unknowns and multipliers are 0, then `Solve` returns the same report (or
throws the same exception) and prints the same lines, up to the leftover in the line about iterate 0; the new unknowns
and multipliers are 0, and the rest of what is written is the same. -/
theorem C76_dense (s s' : FBstabDense ℝ) (hs : s.Reachable) (hs' : s'.Reachable) (hv : s'.nv = s.nv)
    (hopt : s'.options = s.options) (g : Widening s.nz s'.nz s.nl s'.nl) (p p' : DenseProblem ℝ) (x x' : CallerVar ℝ)
    (hf : DenseFits s.nz s.nl s.nv p x) (hf' : DenseFits s'.nz s'.nl s.nv p' x')
    (hy : x.YWritable s.nv) (hy' : x'.YWritable s.nv) (hc : (s.qp p).Convex)
    (hp : QP.ofDense (p'.toData s'.nz s'.nl s.nv) = g.qp (s.qp p)) (hnz : 0 < s.nz) (hnz' : 0 < s'.nz)
    (hst : s.options.stallTol < 1)
    (gz : (x'.z.toVec s'.nz).fn = g.uvec (x.z.toVec s.nz).fn) (gl : (x'.l.toVec s'.nl).fn = g.evec (x.l.toVec s.nl).fn)
    (gv : (x'.v.toVec s.nv).fn = (x.v.toVec s.nv).fn) :
    (s'.solve p' x').result = (s.solve p x).result ∧
    (s'.solve p' x').log.map Msg.blank = (s.solve p x).log.map Msg.blank ∧
    (s.options.displayLevel ≠ .iter → (s'.solve p' x').log = (s.solve p x).log) ∧
    ∀ out, (s.solve p x).result = .ok out →
      let xr := (s.solve p x).x.point s.nz s.nl s.nv
      let xr' := (s'.solve p' x').x.point s'.nz s'.nl s.nv
      (∀ k, xr'.z (g.unknown k) = xr.z k) ∧ (∀ i, (¬∃ k, g.unknown k = i) → xr'.z i = 0) ∧
      (∀ k, xr'.l (g.equation k) = xr.l k) ∧ (∀ i, (¬∃ k, g.equation k = i) → xr'.l i = 0) ∧
      xr'.v.fn = xr.v.fn ∧ xr'.y.fn = xr.y.fn := by
  obtain ⟨nz, nl, nv, mem⟩ := s
  obtain ⟨nz', nl', nv', mem'⟩ := s'
  dsimp only at hv
  subst hv
  change Widening nz nz' nl nl' at g
  have ho : mem.opts.InRange := C01_reachable_dense _ hs
  have hopt : mem'.opts = mem.opts := hopt
  have hp' : FBstabDense.qp (⟨nz', nl', nv', mem'⟩ : FBstabDense ℝ) p' = g.qp (QP.ofDense (p.toData nz nl nv')) := hp
  obtain ⟨sub, r, h1, -, h2, h3⟩ := C54_dense _ hs p x hf hy hc
  obtain ⟨sub', r', k1, -, k2, k3⟩ := C54_dense _ hs' p' x' hf' hy' (by rw [hp']; exact g.convex _ hc)
  rw [hp'] at k1
  change Method.Run _ mem'.opts _ sub' r' at k1
  rw [hopt] at k1
  have k1' : Method.Run (g.qp (QP.ofDense (p.toData nz nl nv'))) mem.opts
      (g.point ⟨(x.z.toVec nz).fn, (x.l.toVec nl).fn, (x.v.toVec nv').fn⟩) sub' r' := by
    have e : (⟨(x'.z.toVec nz').fn, (x'.l.toVec nl').fn, (x'.v.toVec nv').fn⟩ : PD nz' nl' nv') =
        g.point ⟨(x.z.toVec nz).fn, (x.l.toVec nl).fn, (x.v.toVec nv').fn⟩ := PD.ext gz gl gv
    rw [← e]; exact k1
  obtain ⟨e1, e2⟩ := Method.widen_pair g hnz hnz' ho hst hc h1 k1'
  change _ = r'.log.filter (Method.visible mem'.opts.displayLevel) at k2
  change _ = r.log.filter (Method.visible mem.opts.displayLevel) at h2
  rw [hopt] at k2
  refine ⟨?_, ?_, ?_, ?_⟩
  · revert h3 k3
    rw [e1]
    cases r.value with
    | none => rintro ⟨h3, -⟩ ⟨k3, -⟩; rw [h3, k3]
    | some w => rintro ⟨h3, -⟩ ⟨k3, -⟩; rw [h3, k3]
  · rw [h2, k2, Method.filter_blank, Method.filter_blank, e2]
  · intro (hd : mem.opts.displayLevel ≠ .iter)
    rw [h2, k2, ← Method.map_blank_eq hd r'.log, ← Method.map_blank_eq hd r.log, Method.filter_blank,
      Method.filter_blank, e2]
  · intro out h xr xr'
    revert h3 k3
    rw [e1]
    cases r.value with
    | none => rintro ⟨h3, -⟩; rw [h3] at h; cases h
    | some w =>
      rintro ⟨-, a1, a2, a3, a4⟩ ⟨-, b1, b2, b3, b4⟩
      have b1 : xr'.z.fn = g.uvec w.2.z := b1
      have b2 : xr'.l.fn = g.evec w.2.l := b2
      have b3 : xr'.v.fn = w.2.v := b3
      rw [hp'] at b4
      have b4 : xr'.y.fn = (g.qp _).b - (g.qp _).A *ᵥ g.uvec w.2.z := b4
      rw [g.mulA] at b4
      refine ⟨fun k => ?_, fun i hi => ?_, fun k => ?_, fun i hi => ?_, b3.trans a3.symm, b4.trans a4.symm⟩
      · exact (congrFun b1 _).trans ((g.uvec_old _ k).trans (congrFun a1 k).symm)
      · exact (congrFun b1 i).trans (g.uvec_new _ hi)
      · exact (congrFun b2 _).trans ((g.evec_old _ k).trans (congrFun a2 k).symm)
      · exact (congrFun b2 i).trans (g.evec_new _ hi)

/-- C76 for `FBstabMpc`, which wants the same number of inputs in every stage: let `p` be an optimal control problem in
which some inputs, in any stages, occur nowhere except with a nonnegative quadratic cost of their own.
`FBstabMpc::Solve` does with it what `FBstabDense::Solve` does with the problem without these inputs. -/
theorem C76_mpc (s : FBstabMpc ℝ) (sd : FBstabDense ℝ) (hs : s.Reachable) (hsd : sd.Reachable)
    (hv : sd.nv = (s.N + 1) * s.nc) (hopt : sd.options = s.options)
    (g : Widening sd.nz ((s.N + 1) * (s.nx + s.nu)) sd.nl ((s.N + 1) * s.nx)) (p : MpcProblem ℝ) (d : DenseProblem ℝ)
    (x xd : CallerVar ℝ) (hf : MpcFits s.N s.nx s.nu s.nc p x) (hcol : p.Columns)
    (hfd : DenseFits sd.nz sd.nl ((s.N + 1) * s.nc) d xd) (hy : xd.YWritable ((s.N + 1) * s.nc))
    (hc : (QP.ofDense (d.toData sd.nz sd.nl ((s.N + 1) * s.nc))).Convex)
    (hp : s.qp p = g.qp (QP.ofDense (d.toData sd.nz sd.nl ((s.N + 1) * s.nc))))
    (hnz : 0 < sd.nz) (hst : s.options.stallTol < 1)
    (gz : (x.z.toVec ((s.N + 1) * (s.nx + s.nu))).fn = g.uvec (xd.z.toVec sd.nz).fn)
    (gl : (x.l.toVec ((s.N + 1) * s.nx)).fn = g.evec (xd.l.toVec sd.nl).fn)
    (gv : (x.v.toVec ((s.N + 1) * s.nc)).fn = (xd.v.toVec ((s.N + 1) * s.nc)).fn) :
    (s.solve p x).result = (sd.solve d xd).result ∧
    (s.solve p x).log.map Msg.blank = (sd.solve d xd).log.map Msg.blank ∧
    (s.options.displayLevel ≠ .iter → (s.solve p x).log = (sd.solve d xd).log) ∧
    ∀ out, (sd.solve d xd).result = .ok out →
      let xr := (sd.solve d xd).x.point sd.nz sd.nl ((s.N + 1) * s.nc)
      let xr' := (s.solve p x).x.point ((s.N + 1) * (s.nx + s.nu)) ((s.N + 1) * s.nx) ((s.N + 1) * s.nc)
      (∀ k, xr'.z (g.unknown k) = xr.z k) ∧ (∀ i, (¬∃ k, g.unknown k = i) → xr'.z i = 0) ∧
      (∀ k, xr'.l (g.equation k) = xr.l k) ∧ (∀ i, (¬∃ k, g.equation k = i) → xr'.l i = 0) ∧
      xr'.v.fn = xr.v.fn ∧ xr'.y.fn = xr.y.fn := by
  obtain ⟨nz, nl, nv, mem⟩ := sd
  dsimp only at hv
  subst hv
  change Widening nz ((s.N + 1) * (s.nx + s.nu)) nl ((s.N + 1) * s.nx) at g
  change mem.opts = s.options at hopt
  change s.qp p = g.qp (QP.ofDense (d.toData nz nl ((s.N + 1) * s.nc))) at hp
  have ho := C01_reachable_mpc _ hs
  have hcq : (s.qp p).Convex := by rw [hp]; exact g.convex _ hc
  have hnz' : 0 < (s.N + 1) * (s.nx + s.nu) := Fin.pos (g.unknown ⟨0, hnz⟩)
  obtain ⟨sub, r, h1, -, h2, h3⟩ := C54_dense
    (⟨nz, nl, (s.N + 1) * s.nc, mem⟩ : FBstabDense ℝ) hsd d xd hfd hy hc
  obtain ⟨sub', r', k1, -, k2, k3⟩ := C54_mpc s hs p x hf hcol ((C29_convex _).1 hcq)
  rw [hp, ← hopt] at k1
  rw [← hopt] at ho hst
  rw [← hopt] at k2
  rw [← hopt]
  have k1' : Method.Run (g.qp (QP.ofDense (d.toData nz nl ((s.N + 1) * s.nc)))) mem.opts
      (g.point ⟨(xd.z.toVec nz).fn, (xd.l.toVec nl).fn, (xd.v.toVec _).fn⟩) sub' r' := by
    have e : (⟨(x.z.toVec _).fn, (x.l.toVec _).fn, (x.v.toVec _).fn⟩ :
        PD ((s.N + 1) * (s.nx + s.nu)) ((s.N + 1) * s.nx) ((s.N + 1) * s.nc)) =
        g.point ⟨(xd.z.toVec nz).fn, (xd.l.toVec nl).fn, (xd.v.toVec _).fn⟩ := PD.ext gz gl gv
    rw [← e]; exact k1
  change _ = r.log.filter (Method.visible mem.opts.displayLevel) at h2
  obtain ⟨e1, e2⟩ := Method.widen_pair g hnz hnz' ho hst hc h1 k1'
  refine ⟨?_, ?_, ?_, ?_⟩
  · revert h3 k3
    rw [e1]
    cases r.value with
    | none => rintro ⟨h3, -⟩ ⟨k3, -⟩; rw [h3, k3]
    | some w => rintro ⟨h3, -⟩ ⟨k3, -⟩; rw [h3, k3]
  · rw [h2, k2, Method.filter_blank, Method.filter_blank, e2]
  · intro hd
    rw [h2, k2, ← Method.map_blank_eq hd r'.log, ← Method.map_blank_eq hd r.log, Method.filter_blank,
      Method.filter_blank, e2]
  · intro out h xr xr'
    revert h3 k3
    rw [e1]
    cases r.value with
    | none => rintro ⟨h3, -⟩; rw [h3] at h; cases h
    | some w =>
      rintro ⟨-, a1, a2, a3, a4⟩ ⟨-, b1, b2, b3, b4⟩
      have b1 : xr'.z.fn = g.uvec w.2.z := b1
      have b2 : xr'.l.fn = g.evec w.2.l := b2
      have b3 : xr'.v.fn = w.2.v := b3
      rw [hp] at b4
      have b4 : xr'.y.fn = (g.qp _).b - (g.qp _).A *ᵥ g.uvec w.2.z := b4
      rw [g.mulA] at b4
      refine ⟨fun k => ?_, fun i hi => ?_, fun k => ?_, fun i hi => ?_, b3.trans a3.symm, b4.trans a4.symm⟩
      · exact (congrFun b1 _).trans ((g.uvec_old _ k).trans (congrFun a1 k).symm)
      · exact (congrFun b1 i).trans (g.uvec_new _ hi)
      · exact (congrFun b2 _).trans ((g.evec_old _ k).trans (congrFun a2 k).symm)
      · exact (congrFun b2 i).trans (g.evec_new _ hi)

/-- If the unknowns that are not kept are idle and the equations that are not kept are empty, a problem is the kept
problem with additional unknowns and equations. -/
theorem QP.restrict_widening {nz nz' nl nl' nv : Nat} (q : QP nz' nl' nv) (unknown : Fin nz → Fin nz')
    (uinj : Function.Injective unknown) (equation : Fin nl → Fin nl') (einj : Function.Injective equation)
    (hu : ∀ i, (¬∃ k, unknown k = i) → q.Idle i) (he : ∀ i, (¬∃ k, equation k = i) → q.Empty i) :
    ∃ g : Widening nz nz' nl nl', g.unknown = unknown ∧ g.equation = equation ∧
      q = g.qp (q.restrict unknown equation) := by
  let g : Widening nz nz' nl nl' :=
    ⟨unknown, uinj, equation, einj, fun i => max (q.H i i) 0, fun i => le_max_right _ _⟩
  refine ⟨g, rfl, rfl, ?_⟩
  have hu : ∀ i, (¬∃ k, g.unknown k = i) → q.Idle i := hu
  have he : ∀ i, (¬∃ k, g.equation k = i) → q.Empty i := he
  have cases_u : ∀ i, (∃ k, g.unknown k = i) ∨ ¬∃ k, g.unknown k = i := fun i => em _
  have cases_e : ∀ i, (∃ k, g.equation k = i) ∨ ¬∃ k, g.equation k = i := fun i => em _
  have eH : q.H = (g.qp (q.restrict unknown equation)).H := by
    ext i j
    show q.H i j = g.uvec (fun a => g.uvec (fun b => q.H (g.unknown a) (g.unknown b)) j) i + diagonal g.costs i j
    rcases cases_u i with ⟨a, rfl⟩ | hi
    · have e0 : diagonal g.costs (g.unknown a) j = 0 := by
        rw [diagonal_apply]; split
        · exact g.costs_old a
        · rfl
      rw [e0, add_zero, g.uvec_old]
      rcases cases_u j with ⟨b, rfl⟩ | hj
      · rw [g.uvec_old]
      · rw [g.uvec_new _ hj]
        exact (hu j hj).column _ fun h => hj ⟨a, h⟩
    · rw [g.uvec_new _ hi, zero_add, diagonal_apply]
      split
      · next h =>
        subst h
        rw [g.costs_new hi]
        exact (max_eq_left (hu i hi).cost).symm
      · next h => exact (hu i hi).row j fun e => h e.symm
  have ef : q.f = (g.qp (q.restrict unknown equation)).f := by
    funext i
    show q.f i = g.uvec (fun a => q.f (g.unknown a)) i
    rcases cases_u i with ⟨a, rfl⟩ | hi
    · rw [g.uvec_old]
    · rw [g.uvec_new _ hi]; exact (hu i hi).linear
  have eG : q.G = (g.qp (q.restrict unknown equation)).G := by
    ext i j
    show q.G i j = g.evec (fun k => g.uvec (fun b => q.G (g.equation k) (g.unknown b)) j) i
    rcases cases_e i with ⟨a, rfl⟩ | hi
    · rw [g.evec_old]
      rcases cases_u j with ⟨b, rfl⟩ | hj
      · rw [g.uvec_old]
      · rw [g.uvec_new _ hj]; exact (hu j hj).equations _
    · rw [g.evec_new _ hi]; exact (he i hi).row j
  have eh : q.h = (g.qp (q.restrict unknown equation)).h := by
    funext i
    show q.h i = g.evec (fun a => q.h (g.equation a)) i
    rcases cases_e i with ⟨a, rfl⟩ | hi
    · rw [g.evec_old]
    · rw [g.evec_new _ hi]; exact (he i hi).rhs
  have eA : q.A = (g.qp (q.restrict unknown equation)).A := by
    ext i j
    show q.A i j = g.uvec (fun b => q.A i (g.unknown b)) j
    rcases cases_u j with ⟨b, rfl⟩ | hj
    · rw [g.uvec_old]
    · rw [g.uvec_new _ hj]; exact (hu j hj).inequalities _
  have eb : q.b = (g.qp (q.restrict unknown equation)).b := rfl
  revert eH ef eG eh eA eb
  generalize g.qp (q.restrict unknown equation) = r
  obtain ⟨H, f, G, h, A, b⟩ := q
  obtain ⟨H', f', G', h', A', b'⟩ := r
  rintro rfl rfl rfl rfl rfl rfl
  rfl

/-- C76, the other way round: unknowns that occur nowhere except with a nonnegative quadratic cost of their own, and
equations `0 z = 0`, may be dropped. -/
theorem C76_drop_dense (s s' : FBstabDense ℝ) (hs : s.Reachable) (hs' : s'.Reachable) (hv : s'.nv = s.nv)
    (hopt : s'.options = s.options) (unknown : Fin s.nz → Fin s'.nz) (uinj : Function.Injective unknown)
    (equation : Fin s.nl → Fin s'.nl) (einj : Function.Injective equation) (p p' : DenseProblem ℝ) (x x' : CallerVar ℝ)
    (hf : DenseFits s.nz s.nl s.nv p x) (hf' : DenseFits s'.nz s'.nl s.nv p' x')
    (hy : x.YWritable s.nv) (hy' : x'.YWritable s.nv) (hc : (s.qp p).Convex)
    (hu : ∀ i, (¬∃ k, unknown k = i) → (QP.ofDense (p'.toData s'.nz s'.nl s.nv)).Idle i)
    (he : ∀ i, (¬∃ k, equation k = i) → (QP.ofDense (p'.toData s'.nz s'.nl s.nv)).Empty i)
    (hp : s.qp p = (QP.ofDense (p'.toData s'.nz s'.nl s.nv)).restrict unknown equation) (hnz : 0 < s.nz)
    (hst : s.options.stallTol < 1)
    (gz : ∀ k, x'.z.toVec s'.nz (unknown k) = x.z.toVec s.nz k)
    (gz' : ∀ i, (¬∃ k, unknown k = i) → x'.z.toVec s'.nz i = 0)
    (gl : ∀ k, x'.l.toVec s'.nl (equation k) = x.l.toVec s.nl k)
    (gl' : ∀ i, (¬∃ k, equation k = i) → x'.l.toVec s'.nl i = 0)
    (gv : (x'.v.toVec s.nv).fn = (x.v.toVec s.nv).fn) :
    (s'.solve p' x').result = (s.solve p x).result ∧
    (s.options.displayLevel ≠ .iter → (s'.solve p' x').log = (s.solve p x).log) ∧
    ∀ out, (s.solve p x).result = .ok out →
      let xr := (s.solve p x).x.point s.nz s.nl s.nv
      let xr' := (s'.solve p' x').x.point s'.nz s'.nl s.nv
      (∀ k, xr'.z (unknown k) = xr.z k) ∧ (∀ i, (¬∃ k, unknown k = i) → xr'.z i = 0) ∧
      (∀ k, xr'.l (equation k) = xr.l k) ∧ (∀ i, (¬∃ k, equation k = i) → xr'.l i = 0) ∧
      xr'.v.fn = xr.v.fn ∧ xr'.y.fn = xr.y.fn := by
  obtain ⟨g, rfl, rfl, hq⟩ := QP.restrict_widening _ unknown uinj equation einj hu he
  obtain ⟨h1, -, h2, h3⟩ := C76_dense s s' hs hs' hv hopt g p p' x x' hf hf' hy hy' hc (by rw [hp]; exact hq) hnz
    (Fin.pos (g.unknown ⟨0, hnz⟩)) hst (g.up.ext_vec gz gz') (g.ep.ext_vec gl gl') gv
  exact ⟨h1, h2, h3⟩

/-- C76 for `FBstabMpc`, the other way round: inputs that occur nowhere except with a nonnegative quadratic cost of their
own may be dropped, and what remains be solved by `FBstabDense`. -/
theorem C76_drop_mpc (s : FBstabMpc ℝ) (sd : FBstabDense ℝ) (hs : s.Reachable) (hsd : sd.Reachable)
    (hv : sd.nv = (s.N + 1) * s.nc) (hl : sd.nl = (s.N + 1) * s.nx) (hopt : sd.options = s.options)
    (unknown : Fin sd.nz → Fin ((s.N + 1) * (s.nx + s.nu))) (uinj : Function.Injective unknown)
    (p : MpcProblem ℝ) (d : DenseProblem ℝ)
    (x xd : CallerVar ℝ) (hf : MpcFits s.N s.nx s.nu s.nc p x) (hcol : p.Columns)
    (hfd : DenseFits sd.nz ((s.N + 1) * s.nx) ((s.N + 1) * s.nc) d xd) (hy : xd.YWritable ((s.N + 1) * s.nc))
    (hc : (s.ocp p).Convex) (hu : ∀ i, (¬∃ k, unknown k = i) → (s.qp p).Idle i)
    (hp : QP.ofDense (d.toData sd.nz ((s.N + 1) * s.nx) ((s.N + 1) * s.nc)) = (s.qp p).restrict unknown id)
    (hnz : 0 < sd.nz) (hst : s.options.stallTol < 1)
    (gz : ∀ k, x.z.toVec ((s.N + 1) * (s.nx + s.nu)) (unknown k) = xd.z.toVec sd.nz k)
    (gz' : ∀ i, (¬∃ k, unknown k = i) → x.z.toVec ((s.N + 1) * (s.nx + s.nu)) i = 0)
    (gl : (x.l.toVec ((s.N + 1) * s.nx)).fn = (xd.l.toVec ((s.N + 1) * s.nx)).fn)
    (gv : (x.v.toVec ((s.N + 1) * s.nc)).fn = (xd.v.toVec ((s.N + 1) * s.nc)).fn) :
    (s.solve p x).result = (sd.solve d xd).result ∧
    (s.options.displayLevel ≠ .iter → (s.solve p x).log = (sd.solve d xd).log) ∧
    ∀ out, (sd.solve d xd).result = .ok out →
      let xr := (sd.solve d xd).x.point sd.nz ((s.N + 1) * s.nx) ((s.N + 1) * s.nc)
      let xr' := (s.solve p x).x.point ((s.N + 1) * (s.nx + s.nu)) ((s.N + 1) * s.nx) ((s.N + 1) * s.nc)
      (∀ k, xr'.z (unknown k) = xr.z k) ∧ (∀ i, (¬∃ k, unknown k = i) → xr'.z i = 0) ∧
      xr'.l.fn = xr.l.fn ∧ xr'.v.fn = xr.v.fn ∧ xr'.y.fn = xr.y.fn := by
  obtain ⟨nz, nl, nv, mem⟩ := sd
  dsimp only at hl
  subst hl
  change Fin nz → _ at unknown
  obtain ⟨g, rfl, e2, hq⟩ := QP.restrict_widening (s.qp p) unknown uinj id Function.injective_id hu
    fun i hi => absurd ⟨i, rfl⟩ hi
  have hev : ∀ a : Fin ((s.N + 1) * s.nx) → ℝ, g.evec a = a := fun a => by
    funext i
    have := g.evec_old a i
    rw [e2] at this
    exact this
  have hcd : (QP.ofDense (d.toData nz ((s.N + 1) * s.nx) ((s.N + 1) * s.nc))).Convex := by
    have h := (C29_convex _).2 hc
    refine ⟨?_, fun a => ?_⟩
    · rw [hp]
      exact Matrix.IsSymm.ext fun i j => h.symm.apply (g.unknown i) (g.unknown j)
    · have := h.nonneg (g.uvec a)
      have hq' : s.qp p = g.qp (QP.ofDense (d.toData nz ((s.N + 1) * s.nx) ((s.N + 1) * s.nc))) := by
        rw [hp]; exact hq
      change 0 ≤ g.uvec a ⬝ᵥ (s.qp p).H *ᵥ g.uvec a at this
      rw [hq', g.mulH, g.udot] at this
      exact this
  obtain ⟨h1, -, h2, h3⟩ := C76_mpc s ⟨nz, (s.N + 1) * s.nx, nv, mem⟩ hs hsd hv hopt g p d x xd hf hcol hfd hy hcd
    (by rw [hp]; exact hq) hnz hst (g.up.ext_vec gz gz') (gl.trans (hev _).symm) gv
  refine ⟨h1, h2, fun out h => ?_⟩
  obtain ⟨a1, a2, a3, -, a5, a6⟩ := h3 out h
  refine ⟨a1, a2, funext fun k => ?_, a5, a6⟩
  have := a3 k
  rw [e2] at this
  exact this

/-- In an optimal control problem: an input of a stage that has no effect on the states, the constraints and the costs,
except for a nonnegative cost of its own. -/
theorem Ocp.idle {N nx nu nc : Nat} (p : Ocp N nx nu nc) {i : Fin (N + 1)} {m : Fin nu} (hR : 0 ≤ p.R i m m)
    (hRr : ∀ j, j ≠ m → p.R i m j = 0) (hRc : ∀ j, j ≠ m → p.R i j m = 0) (hS : ∀ j, p.S i m j = 0) (hr : p.r i m = 0)
    (hB : ∀ i' : Fin N, i'.castSucc = i → ∀ k, p.B i' k m = 0) (hL : ∀ k, p.L i k m = 0) :
    p.toQP.Idle (uIdx i m : Fin ((N + 1) * (nx + nu))) := by
  have key : ∀ a : Fin ((N + 1) * (nx + nu)), Ocp.stage a = (i, Sum.inr m) → a = uIdx i m := by
    intro a h
    have h1 : Ocp.stage a = Ocp.stage (uIdx i m : Fin ((N + 1) * (nx + nu))) := by rw [h, stage_uIdx]
    simp only [Ocp.stage, Prod.mk.injEq] at h1
    apply finProdFinEquiv.symm.injective
    exact Prod.ext h1.1 (finSumFinEquiv.symm.injective h1.2)
  constructor
  · simp only [Ocp.toQP, of_apply, stage_uIdx, if_true]
    exact hR
  · intro a ha
    simp only [Ocp.toQP, of_apply, stage_uIdx]
    split
    · next h =>
      rcases h2 : (Ocp.stage a).2 with k | k
      · exact hS k
      · refine hRr k fun e => ha (key a (Prod.ext h.symm ?_))
        rw [h2, e]
    · rfl
  · intro a ha
    simp only [Ocp.toQP, of_apply, stage_uIdx]
    split
    · next h =>
      rcases h2 : (Ocp.stage a).2 with k | k
      · simp only [h, fromBlocks_apply₁₂, transpose_apply]
        exact hS k
      · simp only [h]
        refine hRc k fun e => ha (key a (Prod.ext h ?_))
        rw [h2, e]
    · rfl
  · simp only [Ocp.toQP, Ocp.stack, stage_uIdx]
    exact hr
  · intro a
    simp only [Ocp.toQP, of_apply, stage_uIdx]
    split
    · rfl
    · rcases Fin.eq_zero_or_eq_succ (Ocp.block a).1 with h | ⟨i', h⟩
      · rw [h]; rfl
      · rw [h, Fin.cases_succ]
        split
        · next e => exact hB i' e.symm _
        · rfl
  · intro a
    simp only [Ocp.toQP, of_apply, stage_uIdx]
    split
    · next h => exact h ▸ hL _
    · rfl

/-- C76 and C72 together, for `FBstabMpc`, which wants the same number of inputs and of constraints in every stage: let
`p` be an optimal control problem in which some inputs, in any stages, occur nowhere except with a nonnegative quadratic
cost of their own, and some constraints are `0 x + 0 u <= bound` with nonnegative bounds.  `FBstabMpc::Solve` does with
it what `FBstabDense::Solve` does with the problem without these inputs and constraints, if the tolerance does not
depend on the data. -/
theorem C76_ragged_mpc (s : FBstabMpc ℝ) (sd : FBstabDense ℝ) (hs : s.Reachable) (hsd : sd.Reachable)
    (hopt : sd.options = s.options)
    (g : Widening sd.nz ((s.N + 1) * (s.nx + s.nu)) sd.nl ((s.N + 1) * s.nx)) (gp : Padding sd.nv ((s.N + 1) * s.nc))
    (p : MpcProblem ℝ) (d : DenseProblem ℝ)
    (x xd : CallerVar ℝ) (hf : MpcFits s.N s.nx s.nu s.nc p x) (hcol : p.Columns)
    (hfd : DenseFits sd.nz sd.nl sd.nv d xd) (hy : xd.YWritable sd.nv) (hc : (sd.qp d).Convex)
    (hp : s.qp p = g.qp (gp.qp (sd.qp d)))
    (hnz : 0 < sd.nz) (hr : s.options.relTol = 0) (hst : s.options.stallTol < 1)
    (gz : (x.z.toVec ((s.N + 1) * (s.nx + s.nu))).fn = g.uvec (xd.z.toVec sd.nz).fn)
    (gl : (x.l.toVec ((s.N + 1) * s.nx)).fn = g.evec (xd.l.toVec sd.nl).fn)
    (gv : (x.v.toVec ((s.N + 1) * s.nc)).fn = gp.vec (xd.v.toVec sd.nv).fn) :
    (s.solve p x).result = (sd.solve d xd).result ∧
    (s.solve p x).log.map Msg.blank = (sd.solve d xd).log.map Msg.blank ∧
    (s.options.displayLevel ≠ .iter → (s.solve p x).log = (sd.solve d xd).log) ∧
    ∀ out, (sd.solve d xd).result = .ok out →
      let xr := (sd.solve d xd).x.point sd.nz sd.nl sd.nv
      let xr' := (s.solve p x).x.point ((s.N + 1) * (s.nx + s.nu)) ((s.N + 1) * s.nx) ((s.N + 1) * s.nc)
      (∀ k, xr'.z (g.unknown k) = xr.z k) ∧ (∀ i, (¬∃ k, g.unknown k = i) → xr'.z i = 0) ∧
      (∀ k, xr'.l (g.equation k) = xr.l k) ∧ (∀ i, (¬∃ k, g.equation k = i) → xr'.l i = 0) ∧
      (∀ k, xr'.v (gp.row k) = xr.v k ∧ xr'.y (gp.row k) = xr.y k) ∧
      ∀ i, (¬∃ k, gp.row k = i) → xr'.v i = 0 ∧ xr'.y i = gp.bound i := by
  obtain ⟨nz, nl, nv, mem⟩ := sd
  change Widening nz ((s.N + 1) * (s.nx + s.nu)) nl ((s.N + 1) * s.nx) at g
  change Padding nv ((s.N + 1) * s.nc) at gp
  change mem.opts = s.options at hopt
  change s.qp p = g.qp (gp.qp (QP.ofDense (d.toData nz nl nv))) at hp
  have hc : (QP.ofDense (d.toData nz nl nv)).Convex := hc
  have ho := C01_reachable_mpc _ hs
  have hcp := gp.convex _ hc
  have hcq : (s.qp p).Convex := by rw [hp]; exact g.convex _ hcp
  have hnz : 0 < nz := hnz
  have hnz' : 0 < (s.N + 1) * (s.nx + s.nu) := Fin.pos (g.unknown ⟨0, hnz⟩)
  obtain ⟨sub, r, h1, -, h2, h3⟩ := C54_dense
    (⟨nz, nl, nv, mem⟩ : FBstabDense ℝ) hsd d xd hfd hy hc
  obtain ⟨sub', r', k1, -, k2, k3⟩ := C54_mpc s hs p x hf hcol ((C29_convex _).1 hcq)
  rw [hp, ← hopt] at k1
  rw [← hopt] at ho hst hr
  rw [← hopt] at k2
  rw [← hopt]
  have k1' : Method.Run (g.qp (gp.qp (QP.ofDense (d.toData nz nl nv)))) mem.opts
      (g.point (gp.point ⟨(xd.z.toVec nz).fn, (xd.l.toVec nl).fn, (xd.v.toVec _).fn⟩)) sub' r' := by
    have e : (⟨(x.z.toVec _).fn, (x.l.toVec _).fn, (x.v.toVec _).fn⟩ :
        PD ((s.N + 1) * (s.nx + s.nu)) ((s.N + 1) * s.nx) ((s.N + 1) * s.nc)) =
        g.point (gp.point ⟨(xd.z.toVec nz).fn, (xd.l.toVec nl).fn, (xd.v.toVec _).fn⟩) := PD.ext gz gl gv
    rw [← e]; exact k1
  change _ = r.log.filter (Method.visible mem.opts.displayLevel) at h2
  obtain ⟨e1, e2⟩ := Method.widen_pair g hnz hnz' ho hst hcp (C72_method gp hnz ho hr hst h1) k1'
  have e1 : r'.value = r.value.map fun w => (w.1, g.point (gp.point w.2)) := by
    rw [e1]
    show (r.value.map _).map _ = _
    rw [Option.map_map]; rfl
  have e2 : r'.log.map Msg.blank = r.log.map Msg.blank := e2
  refine ⟨?_, ?_, ?_, ?_⟩
  · revert h3 k3
    rw [e1]
    cases r.value with
    | none => rintro ⟨h3, -⟩ ⟨k3, -⟩; rw [h3, k3]
    | some w => rintro ⟨h3, -⟩ ⟨k3, -⟩; rw [h3, k3]
  · rw [h2, k2, Method.filter_blank, Method.filter_blank, e2]
  · intro hd
    rw [h2, k2, ← Method.map_blank_eq hd r'.log, ← Method.map_blank_eq hd r.log, Method.filter_blank,
      Method.filter_blank, e2]
  · intro out h xr xr'
    revert h3 k3
    rw [e1]
    cases r.value with
    | none => rintro ⟨h3, -⟩; rw [h3] at h; cases h
    | some w =>
      rintro ⟨-, a1, a2, a3, a4⟩ ⟨-, b1, b2, b3, b4⟩
      have b1 : xr'.z.fn = g.uvec w.2.z := b1
      have b2 : xr'.l.fn = g.evec w.2.l := b2
      have b3 : xr'.v.fn = gp.vec w.2.v := b3
      rw [hp] at b4
      have b4 : xr'.y.fn = (gp.qp _).b - (g.qp (gp.qp _)).A *ᵥ g.uvec w.2.z := b4
      rw [g.mulA, gp.mulA] at b4
      refine ⟨fun k => ?_, fun i hi => ?_, fun k => ?_, fun i hi => ?_, fun k => ⟨?_, ?_⟩, fun i hi => ⟨?_, ?_⟩⟩
      · exact (congrFun b1 _).trans ((g.uvec_old _ k).trans (congrFun a1 k).symm)
      · exact (congrFun b1 i).trans (g.uvec_new _ hi)
      · exact (congrFun b2 _).trans ((g.evec_old _ k).trans (congrFun a2 k).symm)
      · exact (congrFun b2 i).trans (g.evec_new _ hi)
      · have := congrFun b3 (gp.row k)
        rw [gp.vec_row] at this
        exact this.trans (congrFun a3 k).symm
      · have := congrFun b4 (gp.row k)
        rw [Pi.sub_apply, gp.vec_row, gp.b_row] at this
        exact this.trans (congrFun a4 k).symm
      · have := congrFun b3 i
        rw [gp.vec_new _ hi] at this
        exact this
      · have := congrFun b4 i
        rw [Pi.sub_apply, gp.vec_new _ hi, gp.b_new _ hi, sub_zero] at this
        exact this

/-! ### Concrete cases -/

/-- One unknown between two others, with costs 3, and three equations. -/
noncomputable def wider : Widening 1 3 0 3 :=
  ⟨fun _ => 1, fun _ _ _ => Subsingleton.elim _ _, fun k => k.elim0, fun k => k.elim0, fun _ => 3, fun _ => by norm_num⟩

theorem wider_new {i : Fin 3} (h : i = 0 ∨ i = 2) : ¬∃ k, wider.unknown k = i := by
  rintro ⟨k, hk⟩
  rw [show wider.unknown k = 1 from rfl] at hk
  rcases h with h | h <;> rw [h] at hk <;> revert hk <;> decide

/-- C76_dense: the run with one proximal iteration, with two unknowns and three equations more. -/
example (junk junk' : DenseJunk ℝ) (c : Bool) (d : Display) :
    let s' := FBstabDense.made junk' 3 3 1 (runOptions c d)
    let x' : CallerVar ℝ := guessOf (nz := 3) (nl := 3) (nv := 1) (wider.uvec fun _ => -1e-4) 0 0
    ∃ out, (s'.solve (wider.qp halfQP).toDense x').result = .ok out ∧ out.eflag = .success ∧ out.proxIters = 1 ∧
      ((s'.solve (wider.qp halfQP).toDense x').x.point 3 3 1).z (0 : Fin 3) = 0 ∧
      ((s'.solve (wider.qp halfQP).toDense x').x.point 3 3 1).l (2 : Fin 3) = 0 := by
  intro s' x'
  obtain ⟨out, h1, h2, h3, -⟩ := run_dense junk c d
  have hs' : s'.Reachable :=
    FBstabDense.made_reachable junk' _ (by norm_num) (by norm_num) (by norm_num [intLimit]) (runOptions_inRange c d)
  have hq : (runSolver junk c d).qp halfQP.toDense = halfQP := runSolver_qp junk c d
  have hq' : s'.qp (wider.qp halfQP).toDense = wider.qp halfQP := FBstabDense.made_qp junk' _ _
  obtain ⟨g1, g2, g3⟩ := guessOf_point (nz := 1) (nl := 0) (nv := 1) (fun _ => -1e-4) 0 0
  obtain ⟨g1', g2', g3'⟩ := guessOf_point (nz := 3) (nl := 3) (nv := 1) (wider.uvec fun _ => -1e-4) 0 0
  obtain ⟨k1, -, -, k2⟩ := C76_dense (runSolver junk c d) s' (runSolver_reachable junk c d) hs' rfl rfl wider
    halfQP.toDense (wider.qp halfQP).toDense runGuess x' (halfQP.toDense_fits _ _ _)
    ((wider.qp halfQP).toDense_fits _ _ _) (guessOf_writable _ _ _ _) (guessOf_writable _ _ _ _)
    (by rw [hq]; exact halfQP_convex) (hq'.trans (congrArg wider.qp hq).symm) (by show 0 < 1; norm_num)
    (by show 0 < 3; norm_num)
    (by show (1e-10 : ℝ) < 1; norm_num) (g1'.trans (congrArg wider.uvec g1.symm))
    (g2'.trans (funext fun i => (wider.evec_new _ (by rintro ⟨k, -⟩; exact k.elim0)).symm)) (g3'.trans g3.symm)
  obtain ⟨-, k3, -, k4, -⟩ := k2 out h1
  exact ⟨out, k1.trans h1, h2, h3, k3 (0 : Fin 3) (wider_new (.inl rfl)),
    k4 (2 : Fin 3) (by rintro ⟨k, -⟩; exact k.elim0)⟩

/-- C76_drop_mpc: the hypotheses are met for every convex optimal control problem, whichever of its inputs play no role. -/
example (junk : MpcJunk ℝ) (junk' : DenseJunk ℝ) {N nx nu nc nz : Nat} (o : Params ℝ) (hN : 0 < N)
    (hx : 0 < nx) (hu : 0 < nu) (hc : 0 < nc) (h1 : (nx + nu) * (N + 1) < intLimit)
    (h2 : nc * (N + 1) < intLimit) (h3 : nz + (N + 1) * nx < intLimit) (hz : 0 < nz) (ho : o.InRange)
    (hst : o.stallTol < 1)
    (p : Ocp N nx nu nc) (hp : p.Convex) (unknown : Fin nz → Fin ((N + 1) * (nx + nu)))
    (uinj : Function.Injective unknown)
    (hidle : ∀ i, (¬∃ k, unknown k = i) → p.toQP.Idle i) (z : Fin ((N + 1) * (nx + nu)) → ℝ)
    (l : Fin ((N + 1) * nx) → ℝ) (v : Fin ((N + 1) * nc) → ℝ) (hz0 : ∀ i, (¬∃ k, unknown k = i) → z i = 0) :
    ((FBstabMpc.made junk N nx nu nc o).solve p.toMpc (fullGuessOf z l v)).result =
      ((FBstabDense.made junk' nz ((N + 1) * nx) ((N + 1) * nc) o).solve (p.toQP.restrict unknown id).toDense
        (guessOf (fun k => z (unknown k)) l v)).result := by
  obtain ⟨g1, g2, g3⟩ := fullGuessOf_point z l v
  obtain ⟨g1', g2', g3'⟩ := guessOf_point (fun k => z (unknown k)) l v
  have hq : (FBstabMpc.made junk N nx nu nc o).qp p.toMpc = p.toQP := FBstabMpc.made_qp junk _ _
  have hocp : (FBstabMpc.made junk N nx nu nc o).ocp p.toMpc = p := FBstabMpc.made_ocp junk _ _
  have hqd : (FBstabDense.made junk' nz ((N + 1) * nx) ((N + 1) * nc) o).qp (p.toQP.restrict unknown id).toDense =
    p.toQP.restrict unknown id := FBstabDense.made_qp junk' _ _
  exact (C76_drop_mpc (FBstabMpc.made junk N nx nu nc o) (FBstabDense.made junk' nz _ _ o)
    (FBstabMpc.made_reachable junk o hN hx hu hc h1 h2 ho)
    (FBstabDense.made_reachable junk' o hz (Nat.mul_pos (Nat.succ_pos _) hc) h3 ho) rfl rfl rfl unknown uinj p.toMpc
    (p.toQP.restrict unknown id).toDense _ _ (p.toMpc_fits _ _ _) p.toMpc_columns
    ((p.toQP.restrict unknown id).toDense_fits _ _ _)
    (guessOf_writable _ _ _ _) (by rw [hocp]; exact hp) (by rw [hq]; exact hidle)
    (hqd.trans (congrArg (QP.restrict · unknown id) hq).symm) hz hst
    (fun k => (congrFun g1 (unknown k)).trans (congrFun g1' k).symm)
    (fun i hi => (congrFun g1 i).trans (hz0 i hi))
    (g2.trans g2'.symm) (g3.trans g3'.symm)).1

/-- C76_ragged_mpc: every convex optimal control problem, whichever of its inputs play no role and whichever of its
constraints restrict nothing. -/
example (junk : MpcJunk ℝ) (junk' : DenseJunk ℝ) {N nx nu nc nz nv : Nat} (o : Params ℝ) (hN : 0 < N)
    (hx : 0 < nx) (hu : 0 < nu) (hc : 0 < nc) (h1 : (nx + nu) * (N + 1) < intLimit)
    (h2 : nc * (N + 1) < intLimit) (h3 : nz + (N + 1) * nx < intLimit) (hz : 0 < nz) (hv : 0 < nv) (ho : o.InRange)
    (hr : o.relTol = 0) (hst : o.stallTol < 1)
    (p : Ocp N nx nu nc) (hp : p.Convex) (unknown : Fin nz → Fin ((N + 1) * (nx + nu)))
    (uinj : Function.Injective unknown) (row : Fin nv → Fin ((N + 1) * nc)) (rinj : Function.Injective row)
    (hidle : ∀ i, (¬∃ k, unknown k = i) → p.toQP.Idle i) (hvac : ∀ i, (¬∃ k, row k = i) → p.toQP.Vacuous i)
    (z : Fin ((N + 1) * (nx + nu)) → ℝ)
    (l : Fin ((N + 1) * nx) → ℝ) (v : Fin ((N + 1) * nc) → ℝ) (hz0 : ∀ i, (¬∃ k, unknown k = i) → z i = 0)
    (hv0 : ∀ i, (¬∃ k, row k = i) → v i = 0) :
    ((FBstabMpc.made junk N nx nu nc o).solve p.toMpc (fullGuessOf z l v)).result =
      ((FBstabDense.made junk' nz ((N + 1) * nx) nv o).solve ((p.toQP.restrict unknown id).keep row).toDense
        (guessOf (fun k => z (unknown k)) l fun k => v (row k))).result := by
  obtain ⟨g1, g2, g3⟩ := fullGuessOf_point z l v
  obtain ⟨g1', g2', g3'⟩ := guessOf_point (fun k => z (unknown k)) l fun k => v (row k)
  have hq : (FBstabMpc.made junk N nx nu nc o).qp p.toMpc = p.toQP := FBstabMpc.made_qp junk _ _
  have hqd : (FBstabDense.made junk' nz ((N + 1) * nx) nv o).qp ((p.toQP.restrict unknown id).keep row).toDense =
    (p.toQP.restrict unknown id).keep row := FBstabDense.made_qp junk' _ _
  obtain ⟨g, rfl, e2, hg⟩ := QP.restrict_widening p.toQP unknown uinj id Function.injective_id hidle
    fun i hi => absurd ⟨i, rfl⟩ hi
  obtain ⟨gp, rfl, hgp, -⟩ := (p.toQP.restrict g.unknown id).keep_padding row rinj
    fun i hi => ⟨fun j => (hvac i hi).1 _, (hvac i hi).2⟩
  have hev : ∀ a : Fin ((N + 1) * nx) → ℝ, g.evec a = a := fun a => by
    funext i
    have := g.evec_old a i
    rw [e2] at this
    exact this
  have hcp := (C29_convex p).2 hp
  refine (C76_ragged_mpc (FBstabMpc.made junk N nx nu nc o) (FBstabDense.made junk' nz ((N + 1) * nx) nv o)
    (FBstabMpc.made_reachable junk o hN hx hu hc h1 h2 ho)
    (FBstabDense.made_reachable junk' o hz hv h3 ho) rfl g gp p.toMpc
    ((p.toQP.restrict g.unknown id).keep gp.row).toDense _ _ (p.toMpc_fits _ _ _) p.toMpc_columns
    (QP.toDense_fits _ _ _ _)
    (guessOf_writable _ _ _ _) ?_ ?_ hz hr hst
    (g1.trans ((g.up.ext_vec (fun _ => rfl) hz0).trans (congrArg g.uvec g1'.symm)))
    (g2.trans ((hev _).symm.trans (congrArg g.evec g2'.symm)))
    (g3.trans ((gp.ext_vec (fun _ => rfl) hv0).trans (congrArg gp.vec g3'.symm)))).1
  · rw [hqd]
    refine ⟨Matrix.IsSymm.ext fun i j => hcp.symm.apply (g.unknown i) (g.unknown j), fun (a : Fin nz → ℝ) => ?_⟩
    have := hcp.nonneg (g.uvec a)
    rw [hg, g.mulH, g.udot] at this
    exact this
  · rw [hq, hqd]
    exact hg.trans (congrArg g.qp hgp)

end Fbstab
