import Verif.Spec.Outcome
import Verif.Proofs.DenseSem
import Verif.Proofs.RiccatiSem
import Verif.Proofs.CoreFacts

/-!
# What `Solve` of the public classes computes, in terms of the pure algorithm
-/

namespace Fbstab
variable {K : Type} [Scalar K]

theorem DVec.ofVec_toVec {n : Nat} (v : DVec K) (h : v.size = n) : DVec.ofVec (v.toVec n) = v := by
  subst h
  cases v with | mk data =>
  simp only [DVec.ofVec, DVec.toVec, Vec.ofFn, DVec.mk.injEq]
  apply Array.ext
  · simp [DVec.size]
  · intro i h1 h2
    simp [DVec.size]

omit [Scalar K] in
theorem DVec.toVec_ofVec [Zero K] {n : Nat} (v : Vec K n) : (DVec.ofVec v).toVec n = v := by
  ext i
  simp only [DVec.toVec, Vec.get_ofFn, DVec.ofVec]
  simp [Vec.get]

omit [Scalar K] in
@[simp] theorem DVec.size_ofVec {n : Nat} (v : Vec K n) : (DVec.ofVec v).size = n := by
  simp [DVec.ofVec, DVec.size]

section
variable {D : Type} {nz nl nv : Nat} {ls : LinearSolver K D nz nl nv}

/-- A run-time sized caller variable holding the point. -/
def CallerVar.ofPoint (isMap : Bool) (p : Point K nz nl nv) : CallerVar K :=
  ⟨isMap, .ofVec p.z, .ofVec p.l, .ofVec p.v, .ofVec p.y⟩

omit [Scalar K] in
theorem CallerVar.point_ofPoint [Scalar K] (b : Bool) (p : Point K nz nl nv) :
    (CallerVar.ofPoint b p).point nz nl nv = p := by
  simp [CallerVar.ofPoint, CallerVar.point, DVec.toVec_ofVec]

/-- What a call with accepted inputs does, given what the pure algorithm computes. -/
structure Computes (ops : QPOps K nz nl nv) (opts : Params K) (ri : Resid K nz nl nv)
    (p : List (Core.Event K nz nl nv) × Except Err (Core.Final K nz nl nv))
    (x : CallerVar K) (x' : CallerVar K) (log : List (Msg K)) (r : Except Err (SolverOut K)) :
    Prop where
  error : ∀ e, p.2 = .error e → r = .error e ∧ x' = x ∧
    log = Core.render opts (stoppingTol ops opts) ri p.1
  ok : ∀ fin, p.2 = .ok fin → x.YWritable nv → r = .ok fin.out ∧
    x' = CallerVar.ofPoint x.isMap fin.x ∧ log = Core.render opts (stoppingTol ops opts) ri p.1
  bad : ∀ fin, p.2 = .ok fin → ¬x.YWritable nv → ∃ w, r = .error (.undefinedBehaviour w)

theorem runSolve_spec (S : LinSem ls) (d : D) (ops : QPOps K nz nl nv)
    (mem : AlgMem K D nz nl nv ls) (x : CallerVar K) (hz : x.z.size = nz) (hl : x.l.size = nl)
    (hv : x.v.size = nv) :
    (runSolve d ops mem x).solver.opts = mem.opts ∧
    Computes ops mem.opts mem.ri.r (Core.solve (Core.env S d ops mem.opts) mem.feas.ws
      (x.z.toVec nz) (x.l.toVec nl) (x.v.toVec nv)) x (runSolve d ops mem x).x
      (runSolve d ops mem x).log (runSolve d ops mem x).result ∧
    (x.YWritable nv → (runSolve d ops mem x).solver.feas.ws =
      Core.solveWs (Core.env S d ops mem.opts) mem.feas.ws
        (x.z.toVec nz) (x.l.toVec nl) (x.v.toVec nv)) := by
  obtain ⟨s, hs⟩ : ∃ s : Run K D nz nl nv ls,
    { mem with z0 := x.z.toVec nz, l0 := x.l.toVec nl, v0 := x.v.toVec nv
               y0 := ⟨x.isMap, x.y.data⟩, log := [] } = s := ⟨_, rfl⟩
  have h := Core.run_solve S d ops s
  have e1 : s.opts = mem.opts := by subst hs; rfl
  have e2 : s.feas.ws = mem.feas.ws := by subst hs; rfl
  have e3 : s.z0 = x.z.toVec nz := by subst hs; rfl
  have e4 : s.l0 = x.l.toVec nl := by subst hs; rfl
  have e5 : s.v0 = x.v.toVec nv := by subst hs; rfl
  have e6 : s.y0 = ⟨x.isMap, x.y.data⟩ := by subst hs; rfl
  have e7 : s.log = [] := by subst hs; rfl
  have e8 : s.ri.r = mem.ri.r := by subst hs; rfl
  have hbad : Core.BadY s ↔ ¬x.YWritable nv := by
    simp only [Core.BadY, e6, CallerVar.YWritable, DVec.size]
    constructor
    · rintro ⟨h1, h2⟩ h3; exact h2 (h3 h1)
    · intro h; simpa using h
  simp only [e1, e2, e3, e4, e5, e7, e8, List.nil_append] at h
  generalize Core.solve (Core.env S d ops mem.opts) mem.feas.ws
      (x.z.toVec nz) (x.l.toVec nl) (x.v.toVec nv) = p at h ⊢
  generalize Core.solveWs (Core.env S d ops mem.opts) mem.feas.ws
      (x.z.toVec nz) (x.l.toVec nl) (x.v.toVec nv) = ws at h ⊢
  unfold runSolve
  simp only [hs]
  cases hp : p.2 with
  | error e =>
    rw [hp] at h
    obtain ⟨s', h1, h2, h3, h4⟩ := h
    rw [show Alg.solve d ops s = _ from h1]
    refine ⟨h2.opts.trans e1, ⟨?_, fun fin e => (nomatch hp.symm.trans e),
      fun fin e => (nomatch hp.symm.trans e)⟩, fun _ => h4⟩
    intro e' he'
    rw [hp] at he'
    cases he'
    refine ⟨rfl, ?_, h3⟩
    simp only [h2.z0, h2.l0, h2.v0, h2.y0, e3, e4, e5, e6, DVec.ofVec_toVec _ hz,
      DVec.ofVec_toVec _ hl, DVec.ofVec_toVec _ hv]
  | ok fin =>
    rw [hp] at h
    by_cases hy : x.YWritable nv
    · obtain ⟨s', h1, h2, h3, h4⟩ := h.2 (by rw [hbad]; exact fun h => h hy)
      rw [show Alg.solve d ops s = _ from h1]
      refine ⟨h2.opts.trans e1, ⟨fun e he => (nomatch hp.symm.trans he), ?_,
        fun fin e hn => absurd hy hn⟩, fun _ => h4⟩
      intro fin' he' _
      rw [hp] at he'
      cases he'
      refine ⟨rfl, ?_, h3⟩
      simp only [h2.z0, h2.l0, h2.v0, h2.y0, e6, CallerVar.ofPoint, DVec.ofVec]
    · obtain ⟨w, s', h1, h2⟩ := h.1 (hbad.2 hy)
      rw [show Alg.solve d ops s = _ from h1]
      exact ⟨h2, ⟨fun e he => (nomatch hp.symm.trans he),
        fun fin e hn => absurd hn hy, fun fin _ _ => ⟨w, rfl⟩⟩, fun h => absurd h hy⟩

end

/-! ## FBstabDense -/

namespace FBstabDense

/-- The pure run. -/
def core (s : FBstabDense K) (qp : DenseProblem K) (x : CallerVar K) :=
  Core.solve (Core.env (denseSem K s.nz s.nl s.nv) (qp.toData s.nz s.nl s.nv) (s.problem qp)
    s.options) s.mem.feas.ws (x.z.toVec s.nz) (x.l.toVec s.nl) (x.v.toVec s.nv)

theorem validate_of_fits {s : FBstabDense K} {qp : DenseProblem K} {x : CallerVar K}
    (h : DenseFits s.nz s.nl s.nv qp x) :
    qp.validate = .ok () ∧ s.validateInputs qp x = .ok () := by
  simp [DenseProblem.validate, validateInputs, h.Hr, h.Hc, h.f, h.Gr, h.Gc, h.h, h.Ar, h.Ac, h.b,
    h.z, h.l, h.v]

theorem fits_of_validate {s : FBstabDense K} {qp : DenseProblem K} {x : CallerVar K}
    (h1 : qp.validate = .ok ()) (h2 : s.validateInputs qp x = .ok ()) :
    DenseFits s.nz s.nl s.nv qp x := by
  unfold DenseProblem.validate at h1
  unfold validateInputs at h2
  split at h1
  · cases h1
  split at h1
  · cases h1
  split at h1
  · cases h1
  split at h2
  · cases h2
  split at h2
  · cases h2
  constructor <;> omega

theorem solve_fits {s : FBstabDense K} {qp : DenseProblem K} {x : CallerVar K}
    (h : DenseFits s.nz s.nl s.nv qp x) :
    s.solve qp x = ⟨{ s with mem := (runSolve (qp.toData s.nz s.nl s.nv) (s.problem qp) s.mem x).solver },
      (runSolve (qp.toData s.nz s.nl s.nv) (s.problem qp) s.mem x).x,
      (runSolve (qp.toData s.nz s.nl s.nv) (s.problem qp) s.mem x).log,
      (runSolve (qp.toData s.nz s.nl s.nv) (s.problem qp) s.mem x).result⟩ := by
  obtain ⟨h1, h2⟩ := validate_of_fits h
  simp only [solve, h1, h2]
  rfl

/-- `Solve` with accepted inputs. -/
theorem solve_computes {s : FBstabDense K} {qp : DenseProblem K} {x : CallerVar K}
    (h : DenseFits s.nz s.nl s.nv qp x) :
    Computes (s.problem qp) s.options s.mem.ri.r (s.core qp x) x (s.solve qp x).x
      (s.solve qp x).log (s.solve qp x).result := by
  rw [solve_fits h]
  exact (runSolve_spec (denseSem K s.nz s.nl s.nv) (qp.toData s.nz s.nl s.nv) (s.problem qp) s.mem x
    h.z h.l h.v).2.1

/-- The workspaces of the feasibility checker after `Solve`. -/
theorem solve_ws {s : FBstabDense K} {qp : DenseProblem K} {x : CallerVar K}
    (h : DenseFits s.nz s.nl s.nv qp x) (hy : x.YWritable s.nv) :
    (runSolve (qp.toData s.nz s.nl s.nv) (s.problem qp) s.mem x).solver.feas.ws =
      Core.solveWs (Core.env (denseSem K s.nz s.nl s.nv) (qp.toData s.nz s.nl s.nv) (s.problem qp)
        s.options) s.mem.feas.ws (x.z.toVec s.nz) (x.l.toVec s.nl) (x.v.toVec s.nv) :=
  (runSolve_spec (denseSem K s.nz s.nl s.nv) (qp.toData s.nz s.nl s.nv) (s.problem qp) s.mem x
    h.z h.l h.v).2.2 hy

/-- `Solve` with rejected inputs. -/
theorem solve_rejects {s : FBstabDense K} {qp : DenseProblem K} {x : CallerVar K}
    (h : ¬DenseFits s.nz s.nl s.nv qp x) :
    ∃ m, s.solve qp x = ⟨s, x, [], .error (.runtimeError m)⟩ ∧
      m ∈ denseSizeErrors := by
  cases h1 : qp.validate with
  | error e =>
    have : ∃ m, e = .runtimeError m ∧ m ∈ [
        "In DenseData::DenseData: H must be square and the same size as f",
        "In DenseData::DenseData: Sizing of data defining Az <= b is inconsistent.",
        "In DenseData::DenseData: Sizing of Gz = h is inconsistent."] := by
      unfold DenseProblem.validate at h1
      (repeat' split at h1) <;> cases h1 <;> exact ⟨_, rfl, by simp⟩
    obtain ⟨m, rfl, hm⟩ := this
    exact ⟨m, by simp only [solve, h1], by simp [denseSizeErrors] at hm ⊢; rcases hm with h | h | h <;> simp [h]⟩
  | ok u =>
    cases h2 : s.validateInputs qp x with
    | error e =>
      have : ∃ m, e = .runtimeError m ∧ m ∈ [
        "In FBstabDense::Solve: mismatch between *this and data dimensions.",
        "In FBstabDense::Solve: mismatch between *this and initial guess dimensions."] := by
        unfold validateInputs at h2
        (repeat' split at h2) <;> cases h2 <;> exact ⟨_, rfl, by simp⟩
      obtain ⟨m, rfl, hm⟩ := this
      exact ⟨m, by simp only [solve, h1, h2], by simp [denseSizeErrors] at hm ⊢; rcases hm with h | h <;> simp [h]⟩
    | ok u' => exact absurd (fits_of_validate h1 h2) h

theorem solve_sizes (s : FBstabDense K) (qp : DenseProblem K) (x : CallerVar K) :
    (s.solve qp x).solver.nz = s.nz ∧ (s.solve qp x).solver.nl = s.nl ∧
      (s.solve qp x).solver.nv = s.nv := by
  by_cases h : DenseFits s.nz s.nl s.nv qp x
  · rw [solve_fits h]; exact ⟨rfl, rfl, rfl⟩
  · obtain ⟨m, h, -⟩ := solve_rejects h
    rw [h]; exact ⟨rfl, rfl, rfl⟩

theorem solve_options (s : FBstabDense K) (qp : DenseProblem K) (x : CallerVar K) :
    (s.solve qp x).solver.options = s.options := by
  by_cases h : DenseFits s.nz s.nl s.nv qp x
  · rw [solve_fits h]
    exact (runSolve_spec (denseSem K s.nz s.nl s.nv) (qp.toData s.nz s.nl s.nv) (s.problem qp)
      s.mem x h.z h.l h.v).1
  · obtain ⟨m, h, -⟩ := solve_rejects h
    rw [h]

end FBstabDense

/-! ## FBstabMpc -/

namespace FBstabMpc

/-- The pure run. -/
def core (h0 : ((0 : K) == 0) = true) (s : FBstabMpc K) (p : MpcProblem K) (x : CallerVar K) :=
  Core.solve (Core.env (riccatiSem K h0 s.N s.nx s.nu s.nc) (p.toData s.N s.nx s.nu s.nc)
    (s.problem p) s.options) s.mem.feas.ws (x.z.toVec _) (x.l.toVec _) (x.v.toVec _)

theorem require_eq_ok {c : Prop} [Decidable c] {m : String} : require c m = .ok () ↔ c := by
  unfold require
  split <;> simp [*]

theorem require_bind {c : Prop} [Decidable c] {m : String} {f : Except Err Unit} :
    (require c m >>= fun _ => f) = .ok () ↔ c ∧ f = .ok () := by
  unfold require
  split
  · simp only [*, true_and]; rfl
  · simp only [*, false_and, iff_false]; intro h; cases h

omit [Scalar K] in
theorem validate_iff (p : MpcProblem K) : p.validate = .ok () ↔
    0 < p.Q.N ∧ (p.Q.N = p.R.N ∧ p.Q.N = p.S.N ∧ p.Q.N = p.q.N ∧ p.Q.N = p.r.N ∧ p.Q.N - 1 = p.A.N ∧
      p.Q.N - 1 = p.B.N ∧ p.Q.N - 1 = p.c.N ∧ p.Q.N = p.E.N ∧ p.Q.N = p.L.N ∧ p.Q.N = p.d.N) ∧
    p.x0.size = p.Q.nr ∧ p.Q.nc = p.Q.nr ∧ p.S.nc = p.Q.nr ∧ p.q.nr = p.Q.nr ∧ p.E.nc = p.Q.nr ∧
    (p.A.nr = p.Q.nr ∧ p.A.nc = p.Q.nr) ∧ p.B.nr = p.Q.nr ∧ p.c.nr = p.Q.nr ∧
    p.R.nc = p.R.nr ∧ p.S.nr = p.R.nr ∧ p.r.nr = p.R.nr ∧ p.L.nc = p.R.nr ∧ p.B.nc = p.R.nr ∧
    p.L.nr = p.E.nr ∧ p.d.nr = p.E.nr := by
  unfold MpcProblem.validate
  simp only [require_bind, require_eq_ok]

theorem validate_of_fits {s : FBstabMpc K} {p : MpcProblem K} {x : CallerVar K}
    (h : MpcFits s.N s.nx s.nu s.nc p x) :
    p.validate = .ok () ∧ s.validateInputSizes p x = .ok () := by
  constructor
  · rw [validate_iff]
    simp [h.Q, h.R, h.S, h.q, h.r, h.A, h.B, h.c, h.E, h.L, h.d, h.x0]
  · simp [validateInputSizes, h.B, h.E, h.z, h.l, h.v, h.y]

theorem fits_of_validate {s : FBstabMpc K} {p : MpcProblem K} {x : CallerVar K}
    (h1 : p.validate = .ok ()) (h2 : s.validateInputSizes p x = .ok ()) :
    MpcFits s.N s.nx s.nu s.nc p x := by
  rw [validate_iff] at h1
  unfold validateInputSizes at h2
  split at h2
  · cases h2
  split at h2
  · cases h2
  constructor <;> omega

theorem require_bind_error {c : Prop} [Decidable c] {m : String} {f : Except Err Unit} {e : Err}
    {P : Err → Prop} (hm : P (.runtimeError m)) (hf : f = .error e → P e) :
    (require c m >>= fun _ => f) = .error e → P e := by
  unfold require
  split
  · intro h; exact hf h
  · intro h; cases h; exact hm

theorem require_error {c : Prop} [Decidable c] {m : String} {e : Err}
    {P : Err → Prop} (hm : P (.runtimeError m)) : require c m = .error e → P e := by
  unfold require
  split
  · intro h; cases h
  · intro h; cases h; exact hm

omit [Scalar K] in
theorem validate_error {p : MpcProblem K} {e : Err} (h : p.validate = .error e) :
    ∃ m, e = .runtimeError m ∧ m ∈ mpcSizeErrors := by
  revert h
  unfold MpcProblem.validate
  dsimp only
  have key : ∀ {c : Prop} [Decidable c] {m : String} {f : Except Err Unit} {e : Err},
      m ∈ mpcSizeErrors → (f = .error e → ∃ m, e = .runtimeError m ∧ m ∈ mpcSizeErrors) →
      (require c m >>= fun _ => f) = .error e → ∃ m, e = .runtimeError m ∧ m ∈ mpcSizeErrors :=
    fun hm hf h => require_bind_error
      (P := fun e => ∃ m, e = .runtimeError m ∧ m ∈ mpcSizeErrors) ⟨_, rfl, hm⟩ hf h
  iterate 16 refine key (by simp [mpcSizeErrors]) ?_
  exact require_error (P := fun e => ∃ m, e = .runtimeError m ∧ m ∈ mpcSizeErrors)
    ⟨_, rfl, by simp [mpcSizeErrors]⟩

theorem solve_rejects {s : FBstabMpc K} {p : MpcProblem K} {x : CallerVar K}
    (h : ¬MpcFits s.N s.nx s.nu s.nc p x) :
    ∃ m, s.solve p x = ⟨s, x, [], .error (.runtimeError m)⟩ ∧ m ∈ mpcSizeErrors := by
  cases h1 : p.validate with
  | error e =>
    obtain ⟨m, rfl, hm⟩ := validate_error h1
    exact ⟨m, by simp only [solve, h1], hm⟩
  | ok u =>
    cases h2 : s.validateInputSizes p x with
    | error e =>
      have : ∃ m, e = .runtimeError m ∧ m ∈ mpcSizeErrors := by
        unfold validateInputSizes at h2
        (repeat' split at h2) <;> cases h2 <;> exact ⟨_, rfl, by simp [mpcSizeErrors]⟩
      obtain ⟨m, rfl, hm⟩ := this
      exact ⟨m, by simp only [solve, h1, h2], hm⟩
    | ok u' => exact absurd (fits_of_validate h1 h2) h

theorem solve_fits {s : FBstabMpc K} {p : MpcProblem K} {x : CallerVar K}
    (h : MpcFits s.N s.nx s.nu s.nc p x) (hc : p.Columns) :
    s.solve p x = ⟨{ s with mem := (runSolve (p.toData s.N s.nx s.nu s.nc) (s.problem p) s.mem x).solver },
      (runSolve (p.toData s.N s.nx s.nu s.nc) (s.problem p) s.mem x).x,
      (runSolve (p.toData s.N s.nx s.nu s.nc) (s.problem p) s.mem x).log,
      (runSolve (p.toData s.N s.nx s.nu s.nc) (s.problem p) s.mem x).result⟩ := by
  obtain ⟨h1, h2⟩ := validate_of_fits h
  obtain ⟨c1, c2, c3, c4⟩ := hc
  simp only [solve, h1, h2, c1, c2, c3, c4, ne_eq, not_true_eq_false, or_self, if_false]
  rfl

/-- Data with the documented lengths and row counts, but wrong column counts. -/
theorem solve_not_columns {s : FBstabMpc K} {p : MpcProblem K} {x : CallerVar K}
    (h : MpcFits s.N s.nx s.nu s.nc p x) (hc : ¬p.Columns) :
    ∃ w, s.solve p x = ⟨s, x, [], .error (.undefinedBehaviour w)⟩ := by
  obtain ⟨h1, h2⟩ := validate_of_fits h
  have : p.q.nc ≠ 1 ∨ p.r.nc ≠ 1 ∨ p.c.nc ≠ 1 ∨ p.d.nc ≠ 1 := by
    by_cases c1 : p.q.nc = 1
    · by_cases c2 : p.r.nc = 1
      · by_cases c3 : p.c.nc = 1
        · by_cases c4 : p.d.nc = 1
          · exact absurd ⟨c1, c2, c3, c4⟩ hc
          · simp [c4]
        · simp [c3]
      · simp [c2]
    · simp [c1]
  simp only [solve, h1, h2, if_pos this]
  exact ⟨_, rfl⟩

theorem solve_computes (h0 : ((0 : K) == 0) = true) {s : FBstabMpc K} {p : MpcProblem K}
    {x : CallerVar K} (h : MpcFits s.N s.nx s.nu s.nc p x) (hc : p.Columns) :
    Computes (s.problem p) s.options s.mem.ri.r (s.core h0 p x) x (s.solve p x).x
      (s.solve p x).log (s.solve p x).result := by
  rw [solve_fits h hc]
  exact (runSolve_spec (riccatiSem K h0 s.N s.nx s.nu s.nc) (p.toData s.N s.nx s.nu s.nc)
    (s.problem p) s.mem x h.z h.l h.v).2.1

theorem solve_sizes (h0 : ((0 : K) == 0) = true) (s : FBstabMpc K) (p : MpcProblem K)
    (x : CallerVar K) : (s.solve p x).solver.N = s.N ∧ (s.solve p x).solver.nx = s.nx ∧
      (s.solve p x).solver.nu = s.nu ∧ (s.solve p x).solver.nc = s.nc ∧
      (s.solve p x).solver.options = s.options := by
  by_cases h : MpcFits s.N s.nx s.nu s.nc p x
  · by_cases hc : p.Columns
    · rw [solve_fits h hc]
      exact ⟨rfl, rfl, rfl, rfl, (runSolve_spec (riccatiSem K h0 s.N s.nx s.nu s.nc)
        (p.toData s.N s.nx s.nu s.nc) (s.problem p) s.mem x h.z h.l h.v).1⟩
    · obtain ⟨m, h⟩ := solve_not_columns h hc
      rw [h]; exact ⟨rfl, rfl, rfl, rfl, rfl⟩
  · obtain ⟨m, h, -⟩ := solve_rejects h
    rw [h]; exact ⟨rfl, rfl, rfl, rfl, rfl⟩

/-- The environment of a call. -/
abbrev env (h0 : ((0 : K) == 0) = true) (s : FBstabMpc K) (p : MpcProblem K) :=
  Core.env (riccatiSem K h0 s.N s.nx s.nu s.nc) (p.toData s.N s.nx s.nu s.nc) (s.problem p) s.options

/-- A call that returned. -/
theorem returned (h0 : ((0 : K) == 0) = true) {s : FBstabMpc K} {p : MpcProblem K}
    {x : CallerVar K} {out : SolverOut K} (h : (s.solve p x).result = .ok out) :
    MpcFits s.N s.nx s.nu s.nc p x ∧ p.Columns ∧ ∃ fin, (s.core h0 p x).2 = .ok fin ∧
      Core.Returned (s.env h0 p) s.mem.feas.ws (x.guess (s.problem p)) fin ∧
      out = fin.out ∧ (s.solve p x).x = .ofPoint x.isMap fin.x := by
  by_cases hf : MpcFits s.N s.nx s.nu s.nc p x
  · by_cases hcol : p.Columns
    · have hc := solve_computes h0 hf hcol
      cases hp : (s.core h0 p x).2 with
      | error e => rw [(hc.error e hp).1] at h; cases h
      | ok fin =>
        by_cases hy : x.YWritable ((s.N + 1) * s.nc)
        · obtain ⟨h1, h2, -⟩ := hc.ok fin hp hy
          rw [h1] at h
          cases h
          exact ⟨hf, hcol, fin, rfl, Core.solve_returned hp, rfl, h2⟩
        · exact absurd (fun _ => hf.y) hy
    · obtain ⟨m, e⟩ := solve_not_columns hf hcol
      rw [e] at h; cases h
  · obtain ⟨m, e, -⟩ := solve_rejects hf
    rw [e] at h; cases h

end FBstabMpc

namespace FBstabDense

/-- The environment of a call. -/
abbrev env (s : FBstabDense K) (qp : DenseProblem K) :=
  Core.env (denseSem K s.nz s.nl s.nv) (qp.toData s.nz s.nl s.nv) (s.problem qp) s.options

/-- A call that returned. -/
theorem returned {s : FBstabDense K} {qp : DenseProblem K}
    {x : CallerVar K} {out : SolverOut K} (h : (s.solve qp x).result = .ok out) :
    DenseFits s.nz s.nl s.nv qp x ∧ x.YWritable s.nv ∧ ∃ fin, (s.core qp x).2 = .ok fin ∧
      Core.Returned (s.env qp) s.mem.feas.ws (x.guess (s.problem qp)) fin ∧
      out = fin.out ∧ (s.solve qp x).x = .ofPoint x.isMap fin.x := by
  by_cases hf : DenseFits s.nz s.nl s.nv qp x
  · have hc := solve_computes hf
    cases hp : (s.core qp x).2 with
    | error e => rw [(hc.error e hp).1] at h; cases h
    | ok fin =>
      by_cases hy : x.YWritable s.nv
      · obtain ⟨h1, h2, -⟩ := hc.ok fin hp hy
        rw [h1] at h
        cases h
        exact ⟨hf, hy, fin, rfl, Core.solve_returned hp, rfl, h2⟩
      · obtain ⟨w, e⟩ := hc.bad fin hp hy
        rw [e] at h; cases h
  · obtain ⟨m, e, -⟩ := solve_rejects hf
    rw [e] at h; cases h

end FBstabDense
end Fbstab
