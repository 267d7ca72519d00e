import Verif.Proofs.Workspace
import Verif.Proofs.Errors
import Verif.Props.Options

/-!
# C09, C10, C39, C40: what a `Solve` call does not depend on, and what it leaves alone
-/

namespace Fbstab
section
variable {K : Type} [Scalar K]

/-! ## Preparation -/

theorem FBstabDense.solve_error_of_not_fits {s : FBstabDense K} {qp : DenseProblem K}
    {x : CallerVar K} (h : ¬DenseFits s.nz s.nl s.nv qp x) {e : Err} :
    (s.solve qp x).result = .error e ↔
      (match qp.validate with
        | .error e => some e
        | .ok _ => match s.validateInputs qp x with
          | .error e => some e
          | .ok _ => none) = some e := by
  obtain ⟨m, hm, -⟩ := FBstabDense.solve_rejects h
  unfold FBstabDense.solve at hm ⊢
  cases h1 : qp.validate with
  | error e' => simp
  | ok u =>
    cases h2 : s.validateInputs qp x with
    | error e' => simp
    | ok u => exact absurd (FBstabDense.fits_of_validate h1 h2) h

theorem FBstabMpc.solve_error_of_not_fits {s : FBstabMpc K} {p : MpcProblem K}
    {x : CallerVar K} (h : ¬MpcFits s.N s.nx s.nu s.nc p x) {e : Err} :
    (s.solve p x).result = .error e ↔
      (match p.validate with
        | .error e => some e
        | .ok _ => match s.validateInputSizes p x with
          | .error e => some e
          | .ok _ => none) = some e := by
  unfold FBstabMpc.solve
  cases h1 : p.validate with
  | error e' => simp
  | ok u =>
    cases h2 : s.validateInputSizes p x with
    | error e' => simp
    | ok u => exact absurd (FBstabMpc.fits_of_validate h1 h2) h

theorem Computes.sameAs {nz nl nv : Nat} {ops : QPOps K nz nl nv} {opts opts' : Params K}
    {ops' : QPOps K nz nl nv} {S S' : Type}
    {ri ri' : Resid K nz nl nv}
    {p : List (Core.Event K nz nl nv) × Except Err (Core.Final K nz nl nv)}
    {x x' : CallerVar K} {o : Outcome K S} {o' : Outcome K S'}
    (h : Computes ops opts ri p x o.x o.log o.result)
    (h' : Computes ops' opts' ri' p x' o'.x o'.log o'.result)
    (hm : x'.isMap = x.isMap) (hy : x'.y.size = x.y.size) : o.SameAs o' := by
  have hw : x'.YWritable nv ↔ x.YWritable nv := by
    simp only [CallerVar.YWritable, hm, hy]
  constructor
  · intro out ho
    cases hp : p.2 with
    | error e => rw [(h.error e hp).1] at ho; cases ho
    | ok fin =>
      by_cases hY : x.YWritable nv
      · obtain ⟨h1, h2, -⟩ := h.ok fin hp hY
        obtain ⟨h3, h4, -⟩ := h'.ok fin hp (hw.2 hY)
        rw [h1] at ho
        exact ⟨h3.trans ho, by rw [h4, h2, hm]⟩
      · obtain ⟨w, h1⟩ := h.bad fin hp hY
        rw [h1] at ho; cases ho
  · intro m ho
    cases hp : p.2 with
    | error e => rw [(h.error e hp).1] at ho; rw [(h'.error e hp).1]; exact ho
    | ok fin =>
      by_cases hY : x.YWritable nv
      · obtain ⟨h1, h2, -⟩ := h.ok fin hp hY
        rw [h1] at ho; cases ho
      · obtain ⟨w, h1⟩ := h.bad fin hp hY
        rw [h1] at ho; cases ho

/-! ## C09 -/

/-- C09, FBstabDense: two objects of the same sizes with the same options, whatever calls were made
on them before and whatever their memory contains, do the same with the same problem and the same
`z`, `l`, `v`, whatever is in `y`.  The only law of arithmetic used is `0 * a = 0 * b`, and only if
the feasibility check is switched on. -/
theorem C09_dense' (s s' : FBstabDense K)
    (hmul : s.options.checkFeasibility = true → ∀ a b : K, 0 * a = 0 * b)
    (hz : s'.nz = s.nz) (hl : s'.nl = s.nl) (hv : s'.nv = s.nv) (ho : s'.options = s.options)
    (qp : DenseProblem K) (x x' : CallerVar K)
    (xz : x'.z = x.z) (xl : x'.l = x.l) (xv : x'.v = x.v)
    (xm : x'.isMap = x.isMap) (xy : x'.y.size = x.y.size) :
    (s.solve qp x).SameAs (s'.solve qp x') := by
  obtain ⟨nz, nl, nv, mem⟩ := s
  obtain ⟨nz', nl', nv', mem'⟩ := s'
  obtain ⟨m, z, l, v, y⟩ := x
  obtain ⟨m', z', l', v', y'⟩ := x'
  dsimp only at hz hl hv xz xl xv xm
  subst hz hl hv xz xl xv xm
  by_cases hf : DenseFits nz' nl' nv' qp ⟨m', z', l', v', y⟩
  · have h1 := FBstabDense.solve_computes (s := ⟨nz', nl', nv', mem⟩) hf
    have hf' : DenseFits nz' nl' nv' qp ⟨m', z', l', v', y'⟩ :=
      ⟨hf.Hr, hf.Hc, hf.f, hf.Gr, hf.Gc, hf.h, hf.Ar, hf.Ac, hf.b, hf.z, hf.l, hf.v⟩
    have h2 := FBstabDense.solve_computes (s := ⟨nz', nl', nv', mem'⟩) hf'
    have e : FBstabDense.core ⟨nz', nl', nv', mem'⟩ qp ⟨m', z', l', v', y'⟩ =
        FBstabDense.core ⟨nz', nl', nv', mem⟩ qp ⟨m', z', l', v', y⟩ := by
      simp only [FBstabDense.core, ho]
      exact Core.solve_ws' (fun h => DenseData.clears (hmul h) _) _ _ _ _ _
    rw [e] at h2
    exact h1.sameAs h2 rfl xy
  · have hf' : ¬DenseFits nz' nl' nv' qp ⟨m', z', l', v', y'⟩ := fun h => hf
      ⟨h.Hr, h.Hc, h.f, h.Gr, h.Gc, h.h, h.Ar, h.Ac, h.b, h.z, h.l, h.v⟩
    constructor
    · intro out ho
      obtain ⟨m, h, -⟩ := FBstabDense.solve_rejects (s := ⟨nz', nl', nv', mem⟩) hf
      rw [h] at ho; cases ho
    · intro m hm
      rw [FBstabDense.solve_error_of_not_fits (s := ⟨nz', nl', nv', mem⟩) hf] at hm
      rw [FBstabDense.solve_error_of_not_fits (s := ⟨nz', nl', nv', mem'⟩) hf']
      exact hm

/-- C09, FBstabDense, in arithmetic with `0 * a = 0 * b`. -/
theorem C09_dense (hmul : ∀ a b : K, 0 * a = 0 * b) (s s' : FBstabDense K)
    (hz : s'.nz = s.nz) (hl : s'.nl = s.nl) (hv : s'.nv = s.nv) (ho : s'.options = s.options)
    (qp : DenseProblem K) (x x' : CallerVar K)
    (xz : x'.z = x.z) (xl : x'.l = x.l) (xv : x'.v = x.v)
    (xm : x'.isMap = x.isMap) (xy : x'.y.size = x.y.size) :
    (s.solve qp x).SameAs (s'.solve qp x') :=
  C09_dense' s s' (fun _ => hmul) hz hl hv ho qp x x' xz xl xv xm xy

/-- C09, FBstabMpc, in any arithmetic with `0 == 0`. -/
theorem C09_mpc (h0 : ((0 : K) == 0) = true) (s s' : FBstabMpc K)
    (hN : s'.N = s.N) (hx : s'.nx = s.nx) (hu : s'.nu = s.nu) (hc : s'.nc = s.nc)
    (ho : s'.options = s.options) (p : MpcProblem K) (x x' : CallerVar K)
    (xz : x'.z = x.z) (xl : x'.l = x.l) (xv : x'.v = x.v)
    (xm : x'.isMap = x.isMap) (xy : x'.y.size = x.y.size) :
    (s.solve p x).SameAs (s'.solve p x') := by
  obtain ⟨N, nx, nu, nc, mem⟩ := s
  obtain ⟨N', nx', nu', nc', mem'⟩ := s'
  obtain ⟨m, z, l, v, y⟩ := x
  obtain ⟨m', z', l', v', y'⟩ := x'
  dsimp only at hN hx hu hc xz xl xv xm xy
  subst hN hx hu hc xz xl xv xm
  have key : ∀ {y y' : DVec K}, y'.size = y.size →
      MpcFits N' nx' nu' nc' p ⟨m', z', l', v', y⟩ →
      MpcFits N' nx' nu' nc' p ⟨m', z', l', v', y'⟩ := fun e h =>
    ⟨h.Q, h.R, h.S, h.q, h.r, h.A, h.B, h.c, h.E, h.L, h.d, h.x0, h.z, h.l, h.v, e.trans h.y⟩
  by_cases hf : MpcFits N' nx' nu' nc' p ⟨m', z', l', v', y⟩
  · by_cases hcol : p.Columns
    · have h1 := FBstabMpc.solve_computes h0 (s := ⟨N', nx', nu', nc', mem⟩) hf hcol
      have h2 := FBstabMpc.solve_computes h0 (s := ⟨N', nx', nu', nc', mem'⟩) (key xy hf) hcol
      have e : FBstabMpc.core h0 ⟨N', nx', nu', nc', mem'⟩ p ⟨m', z', l', v', y'⟩ =
          FBstabMpc.core h0 ⟨N', nx', nu', nc', mem⟩ p ⟨m', z', l', v', y⟩ := by
        simp only [FBstabMpc.core, ho]
        exact Core.solve_ws (MpcData.clears h0 _) _ _ _ _ _
      rw [e] at h2
      exact h1.sameAs h2 rfl xy
    · obtain ⟨w, h⟩ := FBstabMpc.solve_not_columns (s := ⟨N', nx', nu', nc', mem⟩) hf hcol
      constructor
      · intro out ho
        rw [h] at ho; cases ho
      · intro m hm
        rw [h] at hm; cases hm
  · have hf' : ¬MpcFits N' nx' nu' nc' p ⟨m', z', l', v', y'⟩ := fun h => hf (key xy.symm h)
    constructor
    · intro out ho
      obtain ⟨m, h, -⟩ := FBstabMpc.solve_rejects (s := ⟨N', nx', nu', nc', mem⟩) hf
      rw [h] at ho; cases ho
    · intro m hm
      rw [FBstabMpc.solve_error_of_not_fits (s := ⟨N', nx', nu', nc', mem⟩) hf] at hm
      rw [FBstabMpc.solve_error_of_not_fits (s := ⟨N', nx', nu', nc', mem'⟩) hf']
      rw [← hm]
      simp only [FBstabMpc.validateInputSizes, xy]

/-! ## C10 -/

/-- C10, FBstabDense: if `Solve` throws, the caller's vectors are untouched and the options are
unchanged.  The exception is always a `std::runtime_error`, provided `y` can be written to. -/
theorem C10_dense (s : FBstabDense K) (qp : DenseProblem K) (x : CallerVar K)
    (hy : x.YWritable s.nv) (e : Err) (h : (s.solve qp x).result = .error e) :
    (s.solve qp x).x = x ∧ (s.solve qp x).solver.options = s.options ∧
    ∃ m, e = .runtimeError m := by
  refine ⟨?_, FBstabDense.solve_options s qp x, ?_⟩ <;> by_cases hf : DenseFits s.nz s.nl s.nv qp x
  · have hc := FBstabDense.solve_computes hf
    cases hp : (s.core qp x).2 with
    | error e => exact (hc.error e hp).2.1
    | ok fin => rw [(hc.ok fin hp hy).1] at h; cases h
  · obtain ⟨m, h', -⟩ := FBstabDense.solve_rejects hf
    rw [h']
  · have hc := FBstabDense.solve_computes hf
    cases hp : (s.core qp x).2 with
    | error e' =>
      rw [(hc.error e' hp).1] at h
      cases h
      obtain ⟨m, h, -⟩ := FBstabDense.core_error hp
      exact ⟨m, h⟩
    | ok fin => rw [(hc.ok fin hp hy).1] at h; cases h
  · obtain ⟨m, h', -⟩ := FBstabDense.solve_rejects hf
    rw [h'] at h
    cases h
    exact ⟨m, rfl⟩

/-- C10, FBstabMpc. -/
theorem C10_mpc (h0 : ((0 : K) == 0) = true) (s : FBstabMpc K) (p : MpcProblem K) (x : CallerVar K)
    (hcol : p.Columns) (e : Err) (h : (s.solve p x).result = .error e) :
    (s.solve p x).x = x ∧ (s.solve p x).solver.options = s.options ∧
    ∃ m, e = .runtimeError m := by
  refine ⟨?_, (FBstabMpc.solve_sizes h0 s p x).2.2.2.2, ?_⟩ <;>
    by_cases hf : MpcFits s.N s.nx s.nu s.nc p x
  · have hc := FBstabMpc.solve_computes h0 hf hcol
    cases hp : (s.core h0 p x).2 with
    | error e => exact (hc.error e hp).2.1
    | ok fin => rw [(hc.ok fin hp (fun _ => hf.y)).1] at h; cases h
  · obtain ⟨m, h', -⟩ := FBstabMpc.solve_rejects hf
    rw [h']
  · have hc := FBstabMpc.solve_computes h0 hf hcol
    cases hp : (s.core h0 p x).2 with
    | error e' =>
      rw [(hc.error e' hp).1] at h
      cases h
      obtain ⟨m, h, -⟩ := FBstabMpc.core_error h0 hp
      exact ⟨m, h⟩
    | ok fin => rw [(hc.ok fin hp (fun _ => hf.y)).1] at h; cases h
  · obtain ⟨m, h', -⟩ := FBstabMpc.solve_rejects hf
    rw [h'] at h
    cases h
    exact ⟨m, rfl⟩

/-- C10, second half, FBstabDense: after a call that threw, the next call does what it would have
done on the object before. -/
theorem C10_next_dense (hmul : ∀ a b : K, 0 * a = 0 * b) (s : FBstabDense K)
    (qp qp' : DenseProblem K) (x x' : CallerVar K) :
    (s.solve qp' x').SameAs ((s.solve qp x).solver.solve qp' x') := by
  obtain ⟨h1, h2, h3⟩ := FBstabDense.solve_sizes s qp x
  exact C09_dense hmul _ _ h1 h2 h3 (FBstabDense.solve_options s qp x) _ _ _ rfl rfl rfl rfl rfl

/-- C10, second half, FBstabMpc. -/
theorem C10_next_mpc (h0 : ((0 : K) == 0) = true) (s : FBstabMpc K)
    (p p' : MpcProblem K) (x x' : CallerVar K) :
    (s.solve p' x').SameAs ((s.solve p x).solver.solve p' x') := by
  obtain ⟨h1, h2, h3, h4, h5⟩ := FBstabMpc.solve_sizes h0 s p x
  exact C09_mpc h0 _ _ h1 h2 h3 h4 h5 _ _ _ rfl rfl rfl rfl rfl

/-! ## Histories -/

theorem FBstabDense.updateOptions_sizes (s : FBstabDense K) (o : Params K) :
    (s.updateOptions o).2.nz = s.nz ∧ (s.updateOptions o).2.nl = s.nl ∧
      (s.updateOptions o).2.nv = s.nv := by
  unfold FBstabDense.updateOptions
  split <;> exact ⟨rfl, rfl, rfl⟩

theorem FBstabMpc.updateOptions_sizes (s : FBstabMpc K) (o : Params K) :
    (s.updateOptions o).2.N = s.N ∧ (s.updateOptions o).2.nx = s.nx ∧
      (s.updateOptions o).2.nu = s.nu ∧ (s.updateOptions o).2.nc = s.nc := by
  unfold FBstabMpc.updateOptions
  split <;> exact ⟨rfl, rfl, rfl, rfl⟩

theorem FBstabDense.after_sizes (h : List (DenseCall K)) : ∀ s : FBstabDense K,
    (s.after h).nz = s.nz ∧ (s.after h).nl = s.nl ∧ (s.after h).nv = s.nv := by
  induction h with
  | nil => intro s; exact ⟨rfl, rfl, rfl⟩
  | cons c h ih =>
    intro s
    obtain ⟨h1, h2, h3⟩ := ih (c.apply s)
    have : (c.apply s).nz = s.nz ∧ (c.apply s).nl = s.nl ∧ (c.apply s).nv = s.nv := by
      cases c with
      | solve qp x => exact s.solve_sizes qp x
      | updateOptions o => exact s.updateOptions_sizes o
    obtain ⟨e1, e2, e3⟩ := this
    exact ⟨h1.trans e1, h2.trans e2, h3.trans e3⟩

theorem FBstabMpc.after_sizes (h0 : ((0 : K) == 0) = true) (h : List (MpcCall K)) :
    ∀ s : FBstabMpc K, (s.after h).N = s.N ∧ (s.after h).nx = s.nx ∧ (s.after h).nu = s.nu ∧
      (s.after h).nc = s.nc := by
  induction h with
  | nil => intro s; exact ⟨rfl, rfl, rfl, rfl⟩
  | cons c h ih =>
    intro s
    obtain ⟨h1, h2, h3, h4⟩ := ih (c.apply s)
    have : (c.apply s).N = s.N ∧ (c.apply s).nx = s.nx ∧ (c.apply s).nu = s.nu ∧
        (c.apply s).nc = s.nc := by
      cases c with
      | solve p x =>
        obtain ⟨e1, e2, e3, e4, -⟩ := s.solve_sizes h0 p x
        exact ⟨e1, e2, e3, e4⟩
      | updateOptions o => exact s.updateOptions_sizes o
    obtain ⟨e1, e2, e3, e4⟩ := this
    exact ⟨h1.trans e1, h2.trans e2, h3.trans e3, h4.trans e4⟩

/-- C09, C39 for FBstabMpc, in terms of histories: two objects constructed with the same sizes,
whatever uninitialised memory they were given and whatever has been called on them since, do the
same in the next call if their last `UpdateOptions` was the same (or there was none). -/
theorem C09_history_mpc (h0 : ((0 : K) == 0) = true) (hv : ValidationTotal K)
    (junk junk' : MpcJunk K) (N nx nu nc : Int) (s s' : FBstabMpc K)
    (hs : FBstabMpc.new junk N nx nu nc = .ok s) (hs' : FBstabMpc.new junk' N nx nu nc = .ok s')
    (h h' : List (MpcCall K)) (hh : MpcCall.lastOptions h = MpcCall.lastOptions h')
    (p : MpcProblem K) (x : CallerVar K) :
    ((s.after h).solve p x).SameAs ((s'.after h').solve p x) := by
  obtain ⟨-, a1, a2, a3, a4, -⟩ := FBstabMpc.new_facts hs
  obtain ⟨-, b1, b2, b3, b4, -⟩ := FBstabMpc.new_facts hs'
  obtain ⟨c1, c2, c3, c4⟩ := s.after_sizes h0 h
  obtain ⟨d1, d2, d3, d4⟩ := s'.after_sizes h0 h'
  have o1 := C03_mpc h0 hv junk N nx nu nc s hs h
  have o2 := C03_mpc h0 hv junk' N nx nu nc s' hs' h'
  rw [hh] at o1
  have ho : (s'.after h').options = (s.after h).options := by
    cases hl : MpcCall.lastOptions h' with
    | none => rw [hl] at o1 o2; exact Eq.trans o2 o1.symm
    | some o =>
      rw [hl] at o1 o2
      have := Eq.trans o2.symm o1
      injection this
  exact C09_mpc h0 _ _ (by omega) (by omega) (by omega) (by omega) ho p x x rfl rfl rfl rfl rfl

/-- C09, C39 for FBstabDense, in terms of histories, in arithmetic with `0 * a = 0 * b`. -/
theorem C09_history_dense (hmul : ∀ a b : K, 0 * a = 0 * b) (hv : ValidationTotal K)
    (junk junk' : DenseJunk K) (nz nl nv : Int) (s s' : FBstabDense K)
    (hs : FBstabDense.new junk nz nl nv = .ok s) (hs' : FBstabDense.new junk' nz nl nv = .ok s')
    (h h' : List (DenseCall K)) (hh : DenseCall.lastOptions h = DenseCall.lastOptions h')
    (qp : DenseProblem K) (x : CallerVar K) :
    ((s.after h).solve qp x).SameAs ((s'.after h').solve qp x) := by
  obtain ⟨-, a1, a2, a3, -⟩ := FBstabDense.new_facts hs
  obtain ⟨-, b1, b2, b3, -⟩ := FBstabDense.new_facts hs'
  obtain ⟨c1, c2, c3⟩ := s.after_sizes h
  obtain ⟨d1, d2, d3⟩ := s'.after_sizes h'
  have o1 := C03_dense hv junk nz nl nv s hs h
  have o2 := C03_dense hv junk' nz nl nv s' hs' h'
  rw [hh] at o1
  have ho : (s'.after h').options = (s.after h).options := by
    cases hl : DenseCall.lastOptions h' with
    | none => rw [hl] at o1 o2; exact Eq.trans o2 o1.symm
    | some o =>
      rw [hl] at o1 o2
      have := Eq.trans o2.symm o1
      injection this
  exact C09_dense hmul _ _ (by omega) (by omega) (by omega) ho qp x x rfl rfl rfl rfl rfl

/-- C39: the log of the first call on a fresh FBstabMpc object does not depend on what was in its
memory either. -/
theorem C39_log_mpc (h0 : ((0 : K) == 0) = true) (junk junk' : MpcJunk K) (N nx nu nc : Int)
    (s s' : FBstabMpc K)
    (hs : FBstabMpc.new junk N nx nu nc = .ok s) (hs' : FBstabMpc.new junk' N nx nu nc = .ok s')
    (p : MpcProblem K) (x : CallerVar K) : (s.solve p x).log = (s'.solve p x).log := by
  have key : ∀ {junk : MpcJunk K} {s}, FBstabMpc.new junk N nx nu nc = .ok s →
      ∃ (w : RiccatiWs K N.toNat nx.toNat nu.toNat nc.toNat) (f : FeasWs K _ _ _),
        s = ⟨N.toNat, nx.toNat, nu.toNat, nc.toNat, AlgMem.fresh w f⟩ := by
    intro junk s h
    unfold FBstabMpc.new at h
    by_cases hb : N < 1 ∨ nx < 1 ∨ nu < 1 ∨ nc < 1
    · simp only [hb, if_true] at h; cases h
    · have p1 : 0 < (nx + nu) * (N + 1) := Int.mul_pos (by omega) (by omega)
      have p2 : 0 < nx * (N + 1) := Int.mul_pos (by omega) (by omega)
      have p3 : 0 < nc * (N + 1) := Int.mul_pos (by omega) (by omega)
      have hb' : ¬((nx + nu) * (N + 1) ≤ 0 ∨ nx * (N + 1) < 0 ∨ nc * (N + 1) ≤ 0) := by omega
      have hb2 : ¬(N ≤ 0 ∨ nx ≤ 0 ∨ nu ≤ 0 ∨ nc ≤ 0) := by omega
      simp only [hb, if_false, componentCheck, hb', hb2] at h
      by_cases ho : (intLimit : Int) ≤ (nx + nu) * (N + 1) ∨ (intLimit : Int) ≤ nx * (N + 1) ∨
          (intLimit : Int) ≤ nc * (N + 1)
      · simp only [ho, if_true] at h; cases h
      · simp only [ho, if_false] at h
        cases h
        exact ⟨_, _, rfl⟩
  obtain ⟨w, f, rfl⟩ := key hs
  obtain ⟨w', f', rfl⟩ := key hs'
  by_cases hf : MpcFits N.toNat nx.toNat nu.toNat nc.toNat p x
  · by_cases hcol : p.Columns
    · have h1 := FBstabMpc.solve_computes h0
        (s := ⟨N.toNat, nx.toNat, nu.toNat, nc.toNat, AlgMem.fresh w f⟩) hf hcol
      have h2 := FBstabMpc.solve_computes h0
        (s := ⟨N.toNat, nx.toNat, nu.toNat, nc.toNat, AlgMem.fresh w' f'⟩) hf hcol
      have e : FBstabMpc.core h0 ⟨N.toNat, nx.toNat, nu.toNat, nc.toNat, AlgMem.fresh w' f'⟩ p x =
          FBstabMpc.core h0 ⟨N.toNat, nx.toNat, nu.toNat, nc.toNat, AlgMem.fresh w f⟩ p x :=
        Core.solve_ws (MpcData.clears h0 _) _ _ _ _ _
      rw [e] at h2
      cases hp : (FBstabMpc.core h0 ⟨N.toNat, nx.toNat, nu.toNat, nc.toNat,
          AlgMem.fresh w f⟩ p x).2 with
      | error er => rw [(h1.error er hp).2.2, (h2.error er hp).2.2]; rfl
      | ok fin => rw [(h1.ok fin hp (fun _ => hf.y)).2.2, (h2.ok fin hp (fun _ => hf.y)).2.2]; rfl
    · obtain ⟨m, h⟩ := FBstabMpc.solve_not_columns
        (s := ⟨N.toNat, nx.toNat, nu.toNat, nc.toNat, AlgMem.fresh w f⟩) hf hcol
      obtain ⟨m', h'⟩ := FBstabMpc.solve_not_columns
        (s := ⟨N.toNat, nx.toNat, nu.toNat, nc.toNat, AlgMem.fresh w' f'⟩) hf hcol
      rw [h, h']
  · obtain ⟨m, h, -⟩ := FBstabMpc.solve_rejects
      (s := ⟨N.toNat, nx.toNat, nu.toNat, nc.toNat, AlgMem.fresh w f⟩) hf
    obtain ⟨m', h', -⟩ := FBstabMpc.solve_rejects
      (s := ⟨N.toNat, nx.toNat, nu.toNat, nc.toNat, AlgMem.fresh w' f'⟩) hf
    rw [h, h']

/-! ## C40 -/

/-- C40: passing a `VariableRef` instead of a `Variable` with the same values makes no difference
(sizes being right). -/
theorem C40_variable_dense (s : FBstabDense K) (qp : DenseProblem K) (x : CallerVar K) (b : Bool)
    (hy : x.y.size = s.nv) :
    let o := s.solve qp x
    let o' := s.solve qp { x with isMap := b }
    o'.result = o.result ∧ o'.x = { o.x with isMap := b } := by
  dsimp only
  by_cases hf : DenseFits s.nz s.nl s.nv qp x
  · have h1 := FBstabDense.solve_computes (s := s) hf
    have hf' : DenseFits s.nz s.nl s.nv qp { x with isMap := b } :=
      ⟨hf.Hr, hf.Hc, hf.f, hf.Gr, hf.Gc, hf.h, hf.Ar, hf.Ac, hf.b, hf.z, hf.l, hf.v⟩
    have h2 := FBstabDense.solve_computes (s := s) hf'
    cases hp : (s.core qp x).2 with
    | error e =>
      obtain ⟨a1, a2, -⟩ := h1.error e hp
      obtain ⟨b1, b2, -⟩ := h2.error e hp
      rw [a1, a2, b1, b2]
      exact ⟨rfl, rfl⟩
    | ok fin =>
      obtain ⟨a1, a2, -⟩ := h1.ok fin hp (fun _ => hy)
      obtain ⟨b1, b2, -⟩ := h2.ok fin hp (fun _ => hy)
      rw [a1, a2, b1, b2]
      exact ⟨rfl, rfl⟩
  · have e : ∀ {a a' : Except Err Unit}, a = a' → a = a' := id
    unfold FBstabDense.solve
    cases hq : qp.validate with
    | error e => exact ⟨rfl, rfl⟩
    | ok u =>
      have : s.validateInputs qp { x with isMap := b } = s.validateInputs qp x := rfl
      cases hs : s.validateInputs qp x with
      | error e => rw [this, hs]; exact ⟨rfl, rfl⟩
      | ok u => exact absurd (FBstabDense.fits_of_validate hq hs) hf

/-- C40, the same for FBstabMpc. -/
theorem C40_variable_mpc (h0 : ((0 : K) == 0) = true) (s : FBstabMpc K) (p : MpcProblem K)
    (x : CallerVar K) (b : Bool) :
    let o := s.solve p x
    let o' := s.solve p { x with isMap := b }
    o'.result = o.result ∧ o'.x = { o.x with isMap := b } := by
  dsimp only
  by_cases hf : MpcFits s.N s.nx s.nu s.nc p x
  · have hf' : MpcFits s.N s.nx s.nu s.nc p { x with isMap := b } :=
      ⟨hf.Q, hf.R, hf.S, hf.q, hf.r, hf.A, hf.B, hf.c, hf.E, hf.L, hf.d, hf.x0, hf.z, hf.l, hf.v,
        hf.y⟩
    by_cases hcol : p.Columns
    · have h1 := FBstabMpc.solve_computes h0 (s := s) hf hcol
      have h2 := FBstabMpc.solve_computes h0 (s := s) hf' hcol
      cases hp : (s.core h0 p x).2 with
      | error e =>
        obtain ⟨a1, a2, -⟩ := h1.error e hp
        obtain ⟨b1, b2, -⟩ := h2.error e hp
        rw [a1, a2, b1, b2]
        exact ⟨rfl, rfl⟩
      | ok fin =>
        obtain ⟨a1, a2, -⟩ := h1.ok fin hp (fun _ => hf.y)
        obtain ⟨b1, b2, -⟩ := h2.ok fin hp (fun _ => hf.y)
        rw [a1, a2, b1, b2]
        exact ⟨rfl, rfl⟩
    · have hc : p.q.nc ≠ 1 ∨ p.r.nc ≠ 1 ∨ p.c.nc ≠ 1 ∨ p.d.nc ≠ 1 := by
        unfold MpcProblem.Columns at hcol
        omega
      obtain ⟨v1, v2⟩ := FBstabMpc.validate_of_fits hf
      obtain ⟨-, v3⟩ := FBstabMpc.validate_of_fits hf'
      simp only [FBstabMpc.solve, v1, v2, v3, hc, if_true]
      exact ⟨by trivial, by trivial⟩
  · unfold FBstabMpc.solve
    cases hq : p.validate with
    | error e => exact ⟨rfl, rfl⟩
    | ok u =>
      have : s.validateInputSizes p { x with isMap := b } = s.validateInputSizes p x := rfl
      cases hs : s.validateInputSizes p x with
      | error e => rw [this, hs]; exact ⟨rfl, rfl⟩
      | ok u => exact absurd (FBstabMpc.fits_of_validate hq hs) hf

omit [Scalar K] in
theorem MapSequence.read_ok [Zero K] (s : MapSequence K) {k i j : Nat} (hk : k < s.N)
    (hi : i < s.nr) (hj : j < s.nc) :
    s.read k i j = .ok ((s.data.getD #[]).getD (k * s.nr * s.nc + j * s.nr + i) 0) := by
  have hn := s.nonnull (by omega)
  obtain ⟨d, hd⟩ := Option.isSome_iff_exists.1 hn
  unfold MapSequence.read
  rw [if_neg (by omega), hd]
  simp only [hi, hj, and_self, if_true, Int.toNat_natCast, Option.getD_some]

omit [Scalar K] in
theorem MapSequence.SameValues.toMat [Zero K] {s s' : MapSequence K} (h : s.SameValues s')
    {r c k : Nat} (hk : k < s.N) (hr : s.nr = r) (hc : s.nc = c) :
    s'.toMat r c k = s.toMat r c k := by
  ext i j
  have h1 := h.read k i j
  rw [s.read_ok hk (hr ▸ i.2) (hc ▸ j.2), s'.read_ok (h.N ▸ hk) (by rw [h.nr, hr]; exact i.2)
    (by rw [h.nc, hc]; exact j.2)] at h1
  simp only [MapSequence.toMat, Mat.get_ofFn]
  injection h1

omit [Scalar K] in
theorem MapSequence.SameValues.toVec [Zero K] {s s' : MapSequence K} (h : s.SameValues s')
    {r k : Nat} (hk : k < s.N) (hr : s.nr = r) (hc : s.nc = 1) : s'.toVec r k = s.toVec r k := by
  ext i
  have h1 := h.read k i 0
  rw [s.read_ok hk (hr ▸ i.2) (by omega), s'.read_ok (h.N ▸ hk) (by rw [h.nr, hr]; exact i.2)
    (by rw [h.nc, hc]; omega)] at h1
  simp only [MapSequence.toVec, Vec.get_ofFn]
  injection h1 with h1
  simpa using h1

/-- C40: `FBstabMpc::Solve` depends on the problem data only through the sizes and the values read
from the sequences: how they are stored makes no difference.  In particular (with
`p = q.toRef` for owning `ProblemData`, C38) owning and referenced data give the same. -/
theorem C40_data_mpc (s : FBstabMpc K) (p p' : MpcProblem K) (hp : p.SameValues p')
    (x : CallerVar K) :
    (s.solve p' x).result = (s.solve p x).result ∧ (s.solve p' x).x = (s.solve p x).x ∧
    (s.solve p' x).log = (s.solve p x).log := by
  have hv : p'.validate = p.validate := by
    unfold MpcProblem.validate
    simp only [hp.Q.N, hp.Q.nr, hp.Q.nc, hp.R.N, hp.R.nr, hp.R.nc, hp.S.N, hp.S.nr, hp.S.nc,
      hp.q.N, hp.q.nr, hp.r.N, hp.r.nr, hp.A.N, hp.A.nr, hp.A.nc, hp.B.N, hp.B.nr, hp.B.nc, hp.c.N,
      hp.c.nr, hp.E.N, hp.E.nr, hp.E.nc, hp.L.N, hp.L.nr, hp.L.nc, hp.d.N, hp.d.nr, hp.x0]
  have hv' : s.validateInputSizes p' x = s.validateInputSizes p x := by
    unfold FBstabMpc.validateInputSizes
    simp only [hp.B.N, hp.B.nr, hp.B.nc, hp.E.nr]
  by_cases hf : MpcFits s.N s.nx s.nu s.nc p x
  · obtain ⟨v1, v2⟩ := FBstabMpc.validate_of_fits hf
    by_cases hcol : p.Columns
    · obtain ⟨c1, c2, c3, c4⟩ := hcol
      have hd : p'.toData s.N s.nx s.nu s.nc = p.toData s.N s.nx s.nu s.nc := by
        unfold MpcProblem.toData
        congr 1 <;> try ext1 i
        · simp only [Vec.get_ofFn]
          exact hp.Q.toMat (by have := hf.Q.1; have := i.2; omega) hf.Q.2.1 hf.Q.2.2
        · simp only [Vec.get_ofFn]
          exact hp.R.toMat (by have := hf.R.1; have := i.2; omega) hf.R.2.1 hf.R.2.2
        · simp only [Vec.get_ofFn]
          exact hp.S.toMat (by have := hf.S.1; have := i.2; omega) hf.S.2.1 hf.S.2.2
        · simp only [Vec.get_ofFn]
          exact hp.q.toVec (by have := hf.q.1; have := i.2; omega) hf.q.2 c1
        · simp only [Vec.get_ofFn]
          exact hp.r.toVec (by have := hf.r.1; have := i.2; omega) hf.r.2 c2
        · simp only [Vec.get_ofFn]
          exact hp.A.toMat (by have := hf.A.1; have := i.2; omega) hf.A.2.1 hf.A.2.2
        · simp only [Vec.get_ofFn]
          exact hp.B.toMat (by have := hf.B.1; have := i.2; omega) hf.B.2.1 hf.B.2.2
        · simp only [Vec.get_ofFn]
          exact hp.c.toVec (by have := hf.c.1; have := i.2; omega) hf.c.2 c3
        · simp only [Vec.get_ofFn]
          exact hp.E.toMat (by have := hf.E.1; have := i.2; omega) hf.E.2.1 hf.E.2.2
        · simp only [Vec.get_ofFn]
          exact hp.L.toMat (by have := hf.L.1; have := i.2; omega) hf.L.2.1 hf.L.2.2
        · simp only [Vec.get_ofFn]
          exact hp.d.toVec (by have := hf.d.1; have := i.2; omega) hf.d.2 c4
        · rw [hp.x0]
      simp only [FBstabMpc.solve, hv, hv', v1, v2, hp.q.nc, hp.r.nc, hp.c.nc, hp.d.nc, c1, c2, c3,
        c4, ne_eq, not_true_eq_false, or_self, if_false, hd, and_self]
    · have hc : p.q.nc ≠ 1 ∨ p.r.nc ≠ 1 ∨ p.c.nc ≠ 1 ∨ p.d.nc ≠ 1 := by
        unfold MpcProblem.Columns at hcol
        omega
      simp only [FBstabMpc.solve, hv, hv', v1, v2, hp.q.nc, hp.r.nc, hp.c.nc, hp.d.nc, hc, if_true,
        and_self]
  · unfold FBstabMpc.solve
    rw [hv, hv']
    cases hq : p.validate with
    | error e => exact ⟨rfl, rfl, rfl⟩
    | ok u =>
      cases hs : s.validateInputSizes p x with
      | error e => exact ⟨rfl, rfl, rfl⟩
      | ok u => exact absurd (FBstabMpc.fits_of_validate hq hs) hf

end

/-- C39 for FBstabDense over the reals: the outcome of the first call on a fresh object (indeed of
any call after any history) does not depend on uninitialised memory. -/
theorem C39_dense (junk junk' : DenseJunk ℝ) (nz nl nv : Int) (s s' : FBstabDense ℝ)
    (hs : FBstabDense.new junk nz nl nv = .ok s) (hs' : FBstabDense.new junk' nz nl nv = .ok s')
    (h : List (DenseCall ℝ)) (qp : DenseProblem ℝ) (x : CallerVar ℝ) :
    ((s.after h).solve qp x).SameAs ((s'.after h).solve qp x) :=
  C09_history_dense (by simp) C01_validation_total_real junk junk' nz nl nv s s' hs hs' h h rfl qp x

/-- C39 for FBstabDense with NaN and infinities: if the feasibility check is switched off, the
outcome of any call does not depend on uninitialised memory or on what was done with the object
before. -/
theorem C39_dense_unchecked (s s' : FBstabDense XReal)
    (hz : s'.nz = s.nz) (hl : s'.nl = s.nl) (hv : s'.nv = s.nv) (ho : s'.options = s.options)
    (hc : s.options.checkFeasibility = false) (qp : DenseProblem XReal) (x : CallerVar XReal) :
    (s.solve qp x).SameAs (s'.solve qp x) :=
  C09_dense' s s' (fun h => by rw [hc] at h; cases h) hz hl hv ho qp x x rfl rfl rfl rfl rfl

/-- C39 for FBstabMpc, with NaN and infinities in the arithmetic and in the memory. -/
theorem C39_mpc (junk junk' : MpcJunk XReal) (N nx nu nc : Int) (s s' : FBstabMpc XReal)
    (hs : FBstabMpc.new junk N nx nu nc = .ok s) (hs' : FBstabMpc.new junk' N nx nu nc = .ok s')
    (h : List (MpcCall XReal)) (p : MpcProblem XReal) (x : CallerVar XReal) :
    ((s.after h).solve p x).SameAs ((s'.after h).solve p x) :=
  C09_history_mpc XReal.beq_zero C01_validation_total_xreal junk junk' N nx nu nc s s' hs hs' h h rfl
    p x

end Fbstab
