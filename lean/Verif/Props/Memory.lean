import Verif.Spec.Memory
import Verif.Props.SingularMpc
import Verif.Proofs.ApiSem
import Verif.Proofs.CoreFacts
import Mathlib.Tactic.Ring

/-!
# C40: which numbers in the caller's memory are the problem, the guess and the answer
-/

namespace Fbstab
section
variable {K : Type} [Scalar K]

theorem DMat.holds {r c : Nat} (m : DMat K) (hr : m.rows = r) (hc : m.cols = c) :
    HoldsMat m.data 0 fun i j => (m.toMat r c) i j := by
  subst hr hc
  intro i j
  show _ = some ((m.toMat m.rows m.cols) i j)
  unfold DMat.toMat
  rw [Mat.get_ofFn]
  have h : j.1 * m.rows + i.1 < m.data.size := by
    rw [m.size_eq]
    calc j.1 * m.rows + i.1 < j.1 * m.rows + m.rows := by omega
      _ = (j.1 + 1) * m.rows := by rw [Nat.succ_mul]
      _ ≤ m.cols * m.rows := Nat.mul_le_mul_right _ j.2
      _ = m.rows * m.cols := Nat.mul_comm _ _
  simp [Array.getD, h]

theorem DVec.holds {n : Nat} (v : DVec K) (h : v.size = n) : HoldsVec v.data 0 fun i => (v.toVec n) i := by
  subst h
  intro i
  show _ = some ((v.toVec v.size) i)
  unfold DVec.toVec
  rw [Vec.get_ofFn]
  have := i.2
  unfold DVec.size at this
  simp [Array.getD, this]

theorem MapSequence.holds {n r c : Nat} (s : MapSequence K) (hn : s.N = n) (hr : s.nr = r) (hc : s.nc = c) :
    HoldsMats s.data fun k : Fin n => fun i j => (s.toMat r c k.1) i j := by
  subst hn hr hc
  intro k
  obtain ⟨a, ha⟩ := Option.isSome_iff_exists.1 (s.nonnull (by have := k.2; omega))
  refine ⟨a, ha, fun i j => ?_⟩
  show _ = some ((s.toMat s.nr s.nc k.1) i j)
  unfold MapSequence.toMat
  rw [Mat.get_ofFn, ha]
  have h : k.1 * s.nr * s.nc + j.1 * s.nr + i.1 < a.size := by
    refine lt_of_lt_of_le ?_ (s.block a ha)
    calc k.1 * s.nr * s.nc + j.1 * s.nr + i.1 < k.1 * s.nr * s.nc + (j.1 * s.nr + s.nr) := by omega
      _ = k.1 * s.nr * s.nc + (j.1 + 1) * s.nr := by rw [Nat.succ_mul]
      _ ≤ k.1 * s.nr * s.nc + s.nc * s.nr := Nat.add_le_add_left (Nat.mul_le_mul_right _ j.2) _
      _ = (k.1 + 1) * (s.nr * s.nc) := by ring
      _ ≤ s.N * (s.nr * s.nc) := Nat.mul_le_mul_right _ k.2
      _ = s.N * s.nr * s.nc := by ring
  rw [show k.1 * (s.nr * s.nc) = k.1 * s.nr * s.nc by ring]
  simp [Array.getD, h]

theorem MapSequence.holdsCols {n r : Nat} (s : MapSequence K) (hn : s.N = n) (hr : s.nr = r) (hc : s.nc = 1) :
    HoldsVecs s.data fun k : Fin n => fun i => (s.toVec r k.1) i := by
  intro k
  obtain ⟨a, ha, h⟩ := MapSequence.holds s hn hr hc k
  refine ⟨a, ha, fun i => ?_⟩
  have : _ = some ((s.toMat r 1 k.1) i 0) := h i 0
  unfold MapSequence.toMat at this
  rw [Mat.get_ofFn] at this
  show _ = some ((s.toVec r k.1) i)
  unfold MapSequence.toVec
  rw [Vec.get_ofFn]
  simpa using this

/-- C40: the problem `FBstabDense::Solve` solves consists of the numbers in the caller's matrices (stored by columns)
and vectors, and so does the guess. -/
theorem C40_memory_dense (s : FBstabDense K) (p : DenseProblem K) (x : CallerVar K)
    (hf : DenseFits s.nz s.nl s.nv p x) :
    let d := p.toData s.nz s.nl s.nv
    HoldsMat p.H.data 0 d.H ∧ HoldsVec p.f.data 0 d.f ∧ HoldsMat p.G.data 0 d.G ∧ HoldsVec p.h.data 0 d.h ∧
    HoldsMat p.A.data 0 d.A ∧ HoldsVec p.b.data 0 d.b ∧
    let g := x.guess (s.problem p)
    HoldsVec x.z.data 0 g.z ∧ HoldsVec x.l.data 0 g.l ∧ HoldsVec x.v.data 0 g.v :=
  ⟨p.H.holds hf.Hr hf.Hc, p.f.holds hf.f, p.G.holds hf.Gr hf.Gc, p.h.holds hf.h, p.A.holds hf.Ar hf.Ac, p.b.holds hf.b,
    x.z.holds hf.z, x.l.holds hf.l, x.v.holds hf.v⟩

/-- C40: the same for `FBstabMpc::Solve`, whose data are sequences of matrices. -/
theorem C40_memory_mpc (s : FBstabMpc K) (p : MpcProblem K) (x : CallerVar K)
    (hf : MpcFits s.N s.nx s.nu s.nc p x) (hcol : p.Columns) :
    let d := p.toData s.N s.nx s.nu s.nc
    HoldsMats p.Q.data (fun k => d.Q k) ∧ HoldsMats p.R.data (fun k => d.R k) ∧ HoldsMats p.S.data (fun k => d.S k) ∧
    HoldsVecs p.q.data (fun k => d.q k) ∧ HoldsVecs p.r.data (fun k => d.r k) ∧
    HoldsMats p.A.data (fun k => d.A k) ∧ HoldsMats p.B.data (fun k => d.B k) ∧ HoldsVecs p.c.data (fun k => d.c k) ∧
    HoldsMats p.E.data (fun k => d.E k) ∧ HoldsMats p.L.data (fun k => d.L k) ∧ HoldsVecs p.d.data (fun k => d.d k) ∧
    HoldsVec p.x0.data 0 d.x0 ∧
    let g := x.guess (s.problem p)
    HoldsVec x.z.data 0 g.z ∧ HoldsVec x.l.data 0 g.l ∧ HoldsVec x.v.data 0 g.v := by
  obtain ⟨hq, hr, hc, hd⟩ := hcol
  intro d
  have mats : ∀ {n r c : Nat} (t : MapSequence K) (h : t.N = n ∧ t.nr = r ∧ t.nc = c),
      HoldsMats t.data fun k : Fin n => fun i j => ((Vec.ofFn fun k : Fin n => t.toMat r c k.1) k) i j := by
    intro n r c t h
    have := t.holds h.1 h.2.1 h.2.2
    simpa only [Vec.get_ofFn] using this
  have vecs : ∀ {n r : Nat} (t : MapSequence K) (h : t.N = n ∧ t.nr = r) (_ : t.nc = 1),
      HoldsVecs t.data fun k : Fin n => fun i => ((Vec.ofFn fun k : Fin n => t.toVec r k.1) k) i := by
    intro n r t h h1
    have := t.holdsCols h.1 h.2 h1
    simpa only [Vec.get_ofFn] using this
  exact ⟨mats p.Q hf.Q, mats p.R hf.R, mats p.S hf.S, vecs p.q hf.q hq, vecs p.r hf.r hr, mats p.A hf.A, mats p.B hf.B,
    vecs p.c hf.c hc, mats p.E hf.E, mats p.L hf.L, vecs p.d hf.d hd, p.x0.holds hf.x0, x.z.holds hf.z, x.l.holds hf.l,
    x.v.holds hf.v⟩

/-- C40: after a call that returns, the caller's vectors hold the returned point. -/
theorem C40_returned_dense (s : FBstabDense K) (p : DenseProblem K) (x : CallerVar K) (out : SolverOut K)
    (h : (s.solve p x).result = .ok out) :
    let x' := (s.solve p x).x
    let w := s.returnedPoint p x
    x'.z.size = s.nz ∧ x'.l.size = s.nl ∧ x'.v.size = s.nv ∧ x'.y.size = s.nv ∧
    HoldsVec x'.z.data 0 w.z ∧ HoldsVec x'.l.data 0 w.l ∧ HoldsVec x'.v.data 0 w.v ∧ HoldsVec x'.y.data 0 w.y := by
  obtain ⟨hf, hy, fin, hp, h1, h2, h3⟩ := FBstabDense.returned h
  have a : (s.solve p x).x.z.size = s.nz := by rw [h3]; exact DVec.size_ofVec _
  have b : (s.solve p x).x.l.size = s.nl := by rw [h3]; exact DVec.size_ofVec _
  have c : (s.solve p x).x.v.size = s.nv := by rw [h3]; exact DVec.size_ofVec _
  have d : (s.solve p x).x.y.size = s.nv := by rw [h3]; exact DVec.size_ofVec _
  exact ⟨a, b, c, d, DVec.holds _ a, DVec.holds _ b, DVec.holds _ c, DVec.holds _ d⟩

/-- C40: the same for `FBstabMpc::Solve`. -/
theorem C40_returned_mpc (h0 : ((0 : K) == 0) = true) (s : FBstabMpc K) (p : MpcProblem K) (x : CallerVar K)
    (out : SolverOut K) (h : (s.solve p x).result = .ok out) :
    let x' := (s.solve p x).x
    let w := s.returnedPoint p x
    x'.z.size = (s.N + 1) * (s.nx + s.nu) ∧ x'.l.size = (s.N + 1) * s.nx ∧ x'.v.size = (s.N + 1) * s.nc ∧
    x'.y.size = (s.N + 1) * s.nc ∧
    HoldsVec x'.z.data 0 w.z ∧ HoldsVec x'.l.data 0 w.l ∧ HoldsVec x'.v.data 0 w.v ∧ HoldsVec x'.y.data 0 w.y := by
  obtain ⟨hf, hy, fin, hp, h1, h2, h3⟩ := FBstabMpc.returned h0 h
  have a : (s.solve p x).x.z.size = (s.N + 1) * (s.nx + s.nu) := by rw [h3]; exact DVec.size_ofVec _
  have b : (s.solve p x).x.l.size = (s.N + 1) * s.nx := by rw [h3]; exact DVec.size_ofVec _
  have c : (s.solve p x).x.v.size = (s.N + 1) * s.nc := by rw [h3]; exact DVec.size_ofVec _
  have d : (s.solve p x).x.y.size = (s.N + 1) * s.nc := by rw [h3]; exact DVec.size_ofVec _
  exact ⟨a, b, c, d, DVec.holds _ a, DVec.holds _ b, DVec.holds _ c, DVec.holds _ d⟩

/-- The specification distinguishes columns from rows: the memory `1, 2, 3, 4` is the matrix with rows `(1, 3)` and
`(2, 4)`, and not the one with rows `(1, 2)` and `(3, 4)`. -/
example : HoldsMat #[1, 2, 3, 4] 0 (fun i j : Fin 2 => 1 + i.1 + 2 * j.1) ∧
    ¬ HoldsMat #[1, 2, 3, 4] 0 (fun i j : Fin 2 => 1 + 2 * i.1 + j.1) := by
  unfold HoldsMat
  decide
end

/-- The hypotheses are met by the binary64 problems of Singular.lean and SingularMpc.lean. -/
example : DenseFits 2 1 1 foldProblem foldGuess ∧
    MpcFits 1 1 2 1 flatMpc flatMpcGuess ∧ flatMpc.Columns :=
  ⟨Flat.fits, FlatMpc.fits, by constructor <;> first | rfl | exact ⟨rfl, rfl, rfl⟩⟩
end Fbstab
