import Verif.Props.Control
import Verif.Proofs.Errors

/-!
# C33 - C37: sizes, validation and undefined behaviour
-/

namespace Fbstab
section
variable {K : Type} [Scalar K]

/-! ## C33 -/

/-- C33: the constructor of `FBstabDense` throws exactly for the documented bad sizes. -/
theorem C33_dense_throws (junk : DenseJunk K) (nz nl nv : Int) :
    (∃ m, FBstabDense.new junk nz nl nv = .error (.runtimeError m)) ↔
      nz ≤ 0 ∨ nl < 0 ∨ nv ≤ 0 := by
  unfold FBstabDense.new
  by_cases hb : nz ≤ 0 ∨ nv ≤ 0 ∨ nl < 0
  · simp only [hb, if_true]
    exact ⟨fun _ => by omega, fun _ => ⟨_, rfl⟩⟩
  · have hb' : ¬(nz ≤ 0 ∨ nl < 0 ∨ nv ≤ 0) := by omega
    simp only [hb, if_false, componentCheck, hb', iff_false]
    rintro ⟨m, h⟩
    by_cases ho : (intLimit : Int) ≤ nz + nl
    · simp only [ho, if_true] at h; cases h
    · simp only [ho, if_false] at h; cases h

/-- C33: for the other sizes construction succeeds, as long as `nz + nl` fits in an `int`. -/
theorem C33_dense_succeeds (junk : DenseJunk K) (nz nl nv : Int) (hz : 0 < nz) (hl : 0 ≤ nl)
    (hv : 0 < nv) (ho : nz + nl < 2 ^ 31) :
    ∃ s, FBstabDense.new junk nz nl nv = .ok s ∧ (s.nz : Int) = nz ∧ (s.nl : Int) = nl ∧
      (s.nv : Int) = nv ∧ s.options = Params.defaults := by
  have : ∃ s, FBstabDense.new junk nz nl nv = .ok s := by
    unfold FBstabDense.new
    have hb : ¬(nz ≤ 0 ∨ nv ≤ 0 ∨ nl < 0) := by omega
    have hb' : ¬(nz ≤ 0 ∨ nl < 0 ∨ nv ≤ 0) := by omega
    have ho' : ¬((intLimit : Int) ≤ nz + nl) := by simp [intLimit]; omega
    simp only [hb, if_false, componentCheck, hb', ho']
    exact ⟨_, rfl⟩
  obtain ⟨s, h⟩ := this
  obtain ⟨h1, h2, h3, h4, -⟩ := FBstabDense.new_facts h
  exact ⟨s, h, h2, h3, h4, h1⟩

/-- C33: the constructor of `FBstabMpc` throws exactly for the documented bad sizes. -/
theorem C33_mpc_throws (junk : MpcJunk K) (N nx nu nc : Int) :
    (∃ m, FBstabMpc.new junk N nx nu nc = .error (.runtimeError m)) ↔
      N < 1 ∨ nx < 1 ∨ nu < 1 ∨ nc < 1 := by
  unfold FBstabMpc.new
  by_cases hb : N < 1 ∨ nx < 1 ∨ nu < 1 ∨ nc < 1
  · simp only [hb, if_true, iff_true]
    exact ⟨_, rfl⟩
  · have p1 : 0 < (nx + nu) * (N + 1) := Int.mul_pos (by omega) (by omega)
    have p2 : 0 < nx * (N + 1) := Int.mul_pos (by omega) (by omega)
    have p3 : 0 < nc * (N + 1) := Int.mul_pos (by omega) (by omega)
    have hb' : ¬((nx + nu) * (N + 1) ≤ 0 ∨ nx * (N + 1) < 0 ∨ nc * (N + 1) ≤ 0) := by omega
    have hb2 : ¬(N ≤ 0 ∨ nx ≤ 0 ∨ nu ≤ 0 ∨ nc ≤ 0) := by omega
    simp only [hb, if_false, componentCheck, hb', hb2, iff_false]
    rintro ⟨m, h⟩
    by_cases ho : (intLimit : Int) ≤ (nx + nu) * (N + 1) ∨ (intLimit : Int) ≤ nx * (N + 1) ∨
        (intLimit : Int) ≤ nc * (N + 1)
    · simp only [ho, if_true] at h; cases h
    · simp only [ho, if_false] at h; cases h

/-- C33: for the other sizes construction succeeds, as long as the sizes of the compact problem fit
in an `int`. -/
theorem C33_mpc_succeeds (junk : MpcJunk K) (N nx nu nc : Int) (hN : 1 ≤ N) (hx : 1 ≤ nx)
    (hu : 1 ≤ nu) (hc : 1 ≤ nc) (ho : (nx + nu) * (N + 1) < 2 ^ 31) (ho' : nc * (N + 1) < 2 ^ 31) :
    ∃ s, FBstabMpc.new junk N nx nu nc = .ok s ∧ (s.N : Int) = N ∧ (s.nx : Int) = nx ∧
      (s.nu : Int) = nu ∧ (s.nc : Int) = nc ∧ s.options = Params.defaults := by
  have : ∃ s, FBstabMpc.new junk N nx nu nc = .ok s := by
    unfold FBstabMpc.new
    have hb : ¬(N < 1 ∨ nx < 1 ∨ nu < 1 ∨ nc < 1) := by omega
    have p1 : 0 < (nx + nu) * (N + 1) := Int.mul_pos (by omega) (by omega)
    have p2 : 0 < nx * (N + 1) := Int.mul_pos (by omega) (by omega)
    have p3 : 0 < nc * (N + 1) := Int.mul_pos (by omega) (by omega)
    have p4 : 0 < nu * (N + 1) := Int.mul_pos (by omega) (by omega)
    have e : (nx + nu) * (N + 1) = nx * (N + 1) + nu * (N + 1) := Int.add_mul ..
    have hb' : ¬((nx + nu) * (N + 1) ≤ 0 ∨ nx * (N + 1) < 0 ∨ nc * (N + 1) ≤ 0) := by omega
    have hb2 : ¬(N ≤ 0 ∨ nx ≤ 0 ∨ nu ≤ 0 ∨ nc ≤ 0) := by omega
    have ho' : ¬((intLimit : Int) ≤ (nx + nu) * (N + 1) ∨ (intLimit : Int) ≤ nx * (N + 1) ∨
        (intLimit : Int) ≤ nc * (N + 1)) := by simp [intLimit]; omega
    simp only [hb, if_false, componentCheck, hb', hb2, ho']
    exact ⟨_, rfl⟩
  obtain ⟨s, h⟩ := this
  obtain ⟨h1, h2, h3, h4, h5, -⟩ := FBstabMpc.new_facts h
  exact ⟨s, h, h2, h3, h4, h5, h1⟩

/-! ## C34, C36, C37: FBstabDense -/

theorem dense_messages_disjoint : ∀ m ∈ denseErrors, m ∉ denseSizeErrors := by decide

theorem mpc_messages_disjoint : ∀ m ∈ mpcErrors, m ∉ mpcSizeErrors := by decide

/-- C34: `FBstabDense::Solve` throws a size error exactly when the sizes are not as documented; the
object and the caller's vectors are then untouched and nothing was printed. -/
theorem C34_dense (s : FBstabDense K) (qp : DenseProblem K) (x : CallerVar K) :
    ((∃ m ∈ denseSizeErrors, (s.solve qp x).result = .error (.runtimeError m)) ↔
      ¬DenseFits s.nz s.nl s.nv qp x) ∧
    (¬DenseFits s.nz s.nl s.nv qp x →
      (s.solve qp x).solver = s ∧ (s.solve qp x).x = x ∧ (s.solve qp x).log = []) := by
  refine ⟨⟨?_, ?_⟩, ?_⟩
  · rintro ⟨m, hm, h⟩ hf
    have hc := FBstabDense.solve_computes hf
    cases hp : (s.core qp x).2 with
    | error e =>
      obtain ⟨m', rfl, hm'⟩ := FBstabDense.core_error hp
      rw [(hc.error _ hp).1] at h
      cases h
      exact dense_messages_disjoint m hm' hm
    | ok fin =>
      by_cases hy : x.YWritable s.nv
      · rw [(hc.ok fin hp hy).1] at h; cases h
      · obtain ⟨w, h'⟩ := hc.bad fin hp hy
        rw [h'] at h; cases h
  · intro hf
    obtain ⟨m, h, hm⟩ := FBstabDense.solve_rejects hf
    exact ⟨m, hm, by rw [h]⟩
  · intro hf
    obtain ⟨m, h, hm⟩ := FBstabDense.solve_rejects hf
    rw [h]
    exact ⟨rfl, rfl, rfl⟩

/-- C36, C37 (the safe half): with accepted sizes, and `y` owning or of the right size, `Solve`
returns or throws one of the three documented runtime errors. -/
theorem C36_dense (s : FBstabDense K) (qp : DenseProblem K) (x : CallerVar K)
    (hf : DenseFits s.nz s.nl s.nv qp x) (hy : x.isMap = true → x.y.size = s.nv) :
    (∃ out, (s.solve qp x).result = .ok out) ∨
    ∃ m ∈ denseErrors, (s.solve qp x).result = .error (.runtimeError m) := by
  have hc := FBstabDense.solve_computes hf
  cases hp : (s.core qp x).2 with
  | error e =>
    obtain ⟨m, rfl, hm⟩ := FBstabDense.core_error hp
    exact .inr ⟨m, hm, (hc.error _ hp).1⟩
  | ok fin => exact .inl ⟨_, (hc.ok fin hp hy).1⟩

/-! ## C35, C36: FBstabMpc -/

/-- C35: `FBstabMpc::Solve` throws a size error exactly when lengths, row counts, column counts of
matrix sequences, or vector sizes are not as documented (`MpcFits` says nothing about the column
counts of `q`, `r`, `c`, `d`); nothing has then been touched. -/
theorem C35_mpc (h0 : ((0 : K) == 0) = true) (s : FBstabMpc K) (p : MpcProblem K)
    (x : CallerVar K) :
    ((∃ m ∈ mpcSizeErrors, (s.solve p x).result = .error (.runtimeError m)) ↔
      ¬MpcFits s.N s.nx s.nu s.nc p x) ∧
    (¬MpcFits s.N s.nx s.nu s.nc p x →
      (s.solve p x).solver = s ∧ (s.solve p x).x = x ∧ (s.solve p x).log = []) := by
  refine ⟨⟨?_, ?_⟩, ?_⟩
  · rintro ⟨m, hm, h⟩ hf
    by_cases hcol : p.Columns
    · have hc := FBstabMpc.solve_computes h0 hf hcol
      cases hp : (s.core h0 p x).2 with
      | error e =>
        obtain ⟨m', rfl, hm'⟩ := FBstabMpc.core_error h0 hp
        rw [(hc.error _ hp).1] at h
        cases h
        exact mpc_messages_disjoint m hm' hm
      | ok fin => rw [(hc.ok fin hp (fun _ => hf.y)).1] at h; cases h
    · obtain ⟨w, h'⟩ := FBstabMpc.solve_not_columns hf hcol
      rw [h'] at h; cases h
  · intro hf
    obtain ⟨m, h, hm⟩ := FBstabMpc.solve_rejects hf
    exact ⟨m, hm, by rw [h]⟩
  · intro hf
    obtain ⟨m, h, hm⟩ := FBstabMpc.solve_rejects hf
    rw [h]
    exact ⟨rfl, rfl, rfl⟩

/-- C36, FBstabMpc: with accepted sizes and column sequences `q`, `r`, `c`, `d`, `Solve` returns or
throws one of the three documented runtime errors. -/
theorem C36_mpc (h0 : ((0 : K) == 0) = true) (s : FBstabMpc K) (p : MpcProblem K) (x : CallerVar K)
    (hf : MpcFits s.N s.nx s.nu s.nc p x) (hcol : p.Columns) :
    (∃ out, (s.solve p x).result = .ok out) ∨
    ∃ m ∈ mpcErrors, (s.solve p x).result = .error (.runtimeError m) := by
  have hc := FBstabMpc.solve_computes h0 hf hcol
  cases hp : (s.core h0 p x).2 with
  | error e =>
    obtain ⟨m, rfl, hm⟩ := FBstabMpc.core_error h0 hp
    exact .inr ⟨m, hm, (hc.error _ hp).1⟩
  | ok fin => exact .inl ⟨_, (hc.ok fin hp (fun _ => hf.y)).1⟩

/-! ## What is not checked -/

/-- A sequence of zero matrices. -/
def MapSequence.zeros (N nr nc : Nat) : MapSequence K :=
  ⟨some (Array.replicate (N * nr * nc) 0), N, nr, nc, by simp, by simp⟩

/-- A zero vector. -/
def DVec.zeros (n : Nat) : DVec K := ⟨Array.replicate n 0⟩

/-- A zero matrix. -/
def DMat.zeros (r c : Nat) : DMat K := ⟨r, c, Array.replicate (r * c) 0, by simp⟩

/-- The problem without data, `q` having `k` columns. -/
def MpcProblem.zeros (K : Type) [Scalar K] (N nx nu nc k : Nat) : MpcProblem K where
  Q := .zeros (N + 1) nx nx
  R := .zeros (N + 1) nu nu
  S := .zeros (N + 1) nu nx
  q := .zeros (N + 1) nx k
  r := .zeros (N + 1) nu 1
  A := .zeros N nx nx
  B := .zeros N nx nu
  c := .zeros N nx 1
  E := .zeros (N + 1) nc nx
  L := .zeros (N + 1) nc nu
  d := .zeros (N + 1) nc 1
  x0 := .zeros nx

/-- Zero vectors of the given sizes. -/
def CallerVar.zeros (K : Type) [Scalar K] (isMap : Bool) (nz nl nv ny : Nat) : CallerVar K :=
  ⟨isMap, .zeros nz, .zeros nl, .zeros nv, .zeros ny⟩

theorem MpcProblem.zeros_fits (N nx nu nc k : Nat) (b : Bool) : MpcFits N nx nu nc
    (MpcProblem.zeros K N nx nu nc k) (CallerVar.zeros K b ((N + 1) * (nx + nu)) ((N + 1) * nx)
      ((N + 1) * nc) ((N + 1) * nc)) := by
  constructor <;> simp [MpcProblem.zeros, MapSequence.zeros, CallerVar.zeros, DVec.zeros, DVec.size]

/-- C35 is false as stated in the documentation: on every solver object there is a call in which `q`
has the wrong number of columns, and which is not rejected but leads to undefined behaviour. -/
theorem C35_columns_not_checked (s : FBstabMpc K) :
    ∃ (p : MpcProblem K) (x : CallerVar K), p.q.nc = 2 ∧
      MpcFits s.N s.nx s.nu s.nc p x ∧
      ∃ w, (s.solve p x).result = .error (.undefinedBehaviour w) := by
  refine ⟨MpcProblem.zeros K s.N s.nx s.nu s.nc 2, CallerVar.zeros K false
    ((s.N + 1) * (s.nx + s.nu)) ((s.N + 1) * s.nx) ((s.N + 1) * s.nc) ((s.N + 1) * s.nc), rfl,
    MpcProblem.zeros_fits .., ?_⟩
  obtain ⟨w, h⟩ := FBstabMpc.solve_not_columns (s := s) (MpcProblem.zeros_fits s.N s.nx s.nu s.nc 2
    false) (fun h => by have := h.1; simp [MpcProblem.zeros, MapSequence.zeros] at this)
  exact ⟨w, by rw [h]⟩

/-- The problem without data. -/
def DenseProblem.zeros (K : Type) [Scalar K] (nz nl nv : Nat) : DenseProblem K :=
  ⟨.zeros nz nz, .zeros nz, .zeros nl nz, .zeros nl, .zeros nv nz, .zeros nv⟩

theorem DenseProblem.zeros_fits (nz nl nv ny : Nat) (b : Bool) : DenseFits nz nl nv
    (DenseProblem.zeros K nz nl nv) (CallerVar.zeros K b nz nl nv ny) := by
  constructor <;> simp [DenseProblem.zeros, DMat.zeros, CallerVar.zeros, DVec.zeros, DVec.size]

end

/-! ### over the reals -/

theorem Vec.eq_const_of_zeros {n : Nat} : (DVec.zeros n : DVec ℝ).toVec n = Vec.const 0 := by
  ext i
  simp [DVec.zeros, DVec.toVec]

theorem Mat.eq_zero_of_zeros {r c : Nat} :
    (DMat.zeros r c : DMat ℝ).toMat r c = Mat.ofFn fun _ _ => 0 := by
  ext i j
  simp only [DMat.zeros, DMat.toMat, Mat.get_ofFn, Array.getD_eq_getD_getElem?,
    Array.getElem?_replicate]
  split <;> rfl

theorem residual_zeros (nz nl nv : Nat) (alpha : ℝ) (b : Bool) (ny : Nat) :
    residualNorm ((DenseProblem.zeros ℝ nz nl nv).toData nz nl nv).ops alpha
      ((CallerVar.zeros ℝ b nz nl nv ny).guess ((DenseProblem.zeros ℝ nz nl nv).toData nz nl nv).ops)
      = 0 := by
  simp [residualNorm, norm3, gradLagrangian, eqDefect, penalizedMin, CallerVar.guess, margin,
    DenseData.ops, DenseProblem.toData, DenseProblem.zeros, CallerVar.zeros, Vec.eq_const_of_zeros,
    Mat.eq_zero_of_zeros, Vec.norm_eq, DenseData.gemvA, DenseData.gemvG, DenseData.gemvH,
    DenseData.gemvAT, DenseData.gemvGT, DenseData.axpyb, DenseData.axpyf, DenseData.axpyh]

theorem stoppingTol_pos {nz nl nv : Nat} (d : DenseData ℝ nz nl nv) (o : Params ℝ)
    (ho : o.InRange) : 0 < stoppingTol d.ops o := by
  have h1 := ho.absTol
  have h2 := ho.relTol
  have h3 : 0 ≤ d.ops.forcingNorm := Real.sqrt_nonneg _
  have h4 : 0 ≤ o.relTol * (1 + d.ops.forcingNorm) := mul_nonneg h2 (by linarith)
  have h5 : (0 : ℝ) < 1e-14 := by norm_num
  unfold stoppingTol
  linarith

/-- C37 is false: on every freshly constructed `FBstabDense` object there is a call with a
`VariableRef` whose `y` has the wrong size, which passes validation and runs into undefined
behaviour (an out of bounds write through the map, or an Eigen assertion). -/
theorem C37_y_not_checked (junk : DenseJunk ℝ) (nz nl nv : Int) (s : FBstabDense ℝ)
    (hs : FBstabDense.new junk nz nl nv = .ok s) (ny : Nat) (hy : ny ≠ s.nv) :
    ∃ (qp : DenseProblem ℝ) (x : CallerVar ℝ), x.isMap = true ∧ x.y.size = ny ∧
      DenseFits s.nz s.nl s.nv qp x ∧
      ∃ w, (s.solve qp x).result = .error (.undefinedBehaviour w) := by
  obtain ⟨ho, -⟩ := FBstabDense.new_facts hs
  refine ⟨DenseProblem.zeros ℝ s.nz s.nl s.nv, CallerVar.zeros ℝ true s.nz s.nl s.nv ny, rfl,
    by simp [CallerVar.zeros, DVec.zeros, DVec.size], DenseProblem.zeros_fits .., ?_⟩
  have hc := FBstabDense.solve_computes (s := s)
    (DenseProblem.zeros_fits (K := ℝ) s.nz s.nl s.nv ny true)
  have hg := Core.solve_good (E := s.env (DenseProblem.zeros ℝ s.nz s.nl s.nv))
    (ws := s.mem.feas.ws) (z := (DVec.zeros s.nz : DVec ℝ).toVec s.nz)
    (l := (DVec.zeros s.nl : DVec ℝ).toVec s.nl) (v := (DVec.zeros s.nv : DVec ℝ).toVec s.nv)
    (by
      show ¬s.options.innerTolMax < s.options.innerTolMin
      rw [ho]; norm_num [Params.defaults])
    (by show 1 ≤ s.options.maxProxIters; rw [ho]; simp [Params.defaults])
    (by
      have h1 := residual_zeros s.nz s.nl s.nv s.options.alpha true ny
      refine le_trans (le_of_eq h1) (stoppingTol_pos _ _ ?_).le
      show s.options.InRange
      rw [ho]; exact defaults_inRange)
  exact hc.bad _ hg (fun h => hy (by
    have := h rfl
    simpa [CallerVar.zeros, DVec.zeros, DVec.size] using this))

end Fbstab
