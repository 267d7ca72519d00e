import Verif.Model.OcpGen
import Verif.Props.Sequences

/-!
# C42: generated optimal control problems

`OcpGenerator` of the test helpers.
-/

namespace Fbstab
variable {K : Type} [Scalar K]

/-- The stage matrices have the shapes of fbstab_mpc.h:34-66. -/
structure StageInputs.Shaped (nx nu nc : Nat) (a : StageInputs K) : Prop where
  Q : a.Q.rows = nx ∧ a.Q.cols = nx
  R : a.R.rows = nu ∧ a.R.cols = nu
  S : a.S.rows = nu ∧ a.S.cols = nx
  q : a.q.size = nx
  r : a.r.size = nu
  A : a.A.rows = nx ∧ a.A.cols = nx
  B : a.B.rows = nx ∧ a.B.cols = nu
  c : a.c.size = nx
  E : a.E.rows = nc ∧ a.E.cols = nx
  L : a.L.rows = nc ∧ a.L.cols = nu
  d : a.d.size = nc
  x0 : a.x0.size = nx

/-- The data repeat the stage over the horizon; the state is not constrained at the first stage. -/
structure Repeats {N nx nu nc : Nat} (a : StageInputs K) (D : MpcData K N nx nu nc) : Prop where
  Q : ∀ i, D.Q i = a.Q.toMat nx nx
  R : ∀ i, D.R i = a.R.toMat nu nu
  S : ∀ i, D.S i = a.S.toMat nu nx
  q : ∀ i, D.q i = a.q.toVec nx
  r : ∀ i, D.r i = a.r.toVec nu
  A : ∀ i, D.A i = a.A.toMat nx nx
  B : ∀ i, D.B i = a.B.toMat nx nu
  c : ∀ i, D.c i = a.c.toVec nx
  Ezero : ∀ i j, D.E 0 i j = 0
  E : ∀ i : Fin N, D.E i.succ = a.E.toMat nc nx
  L : ∀ i, D.L i = a.L.toMat nc nu
  d : ∀ i, D.d i = a.d.toVec nc
  x0 : D.x0 = a.x0.toVec nx

theorem fillSeq_spec (m : Nat → DMat K) (n : Nat) (s : MatrixSequence K) (hn : n ≤ s.N)
    (hm : ∀ i < n, (m i).rows = s.nr ∧ (m i).cols = s.nc) :
    ∃ s', fillSeq m n s = .ok s' ∧ s'.N = s.N ∧ s'.nr = s.nr ∧ s'.nc = s.nc ∧
      ∀ k : Nat, k < n → ∀ i j, i < s.nr → j < s.nc →
        s'.read k i j = .ok ((m k).data.getD (j * (m k).rows + i) 0) := by
  induction n with
  | zero => exact ⟨s, rfl, rfl, rfl, rfl, fun k hk => absurd hk (by omega)⟩
  | succ n ih =>
    obtain ⟨s1, e1, a1, a2, a3, a4⟩ := ih (by omega) fun i hi => hm i (by omega)
    obtain ⟨b1, b2⟩ := hm n (by omega)
    obtain ⟨s2, e2, c1, c2, c3, c4⟩ := C38_assign s1 n (m n) (by rw [b1, a2]) (by rw [b2, a3])
      (by omega) (by omega)
    refine ⟨s2, ?_, c1.trans a1, c2.trans a2, c3.trans a3, ?_⟩
    · simp only [fillSeq, e1]
      exact e2
    · intro k hk i j hi hj
      rw [c4 k i j (by omega) (by omega)]
      by_cases hkn : k = n
      · subst hkn; simp
      · rw [if_neg (by exact_mod_cast hkn)]
        exact a4 k (by omega) i j hi hj

/-- A new sequence, filled. -/
theorem new_fill (m : Nat → DMat K) (n r c : Nat) (hr : 0 < r) (hc : 0 < c) (hlim : n * r * c < intLimit)
    (hm : ∀ i < n, (m i).rows = r ∧ (m i).cols = c) :
    ∃ s s' : MatrixSequence K, MatrixSequence.new n r c = .ok s ∧ fillSeq m n s = .ok s' ∧
      s'.N = n ∧ s'.nr = r ∧ s'.nc = c ∧
      ∀ k : Nat, k < n → ∀ i j, i < r → j < c →
        s'.read k i j = .ok ((m k).data.getD (j * (m k).rows + i) 0) := by
  obtain ⟨s, h1, h2, h3, h4, -, -⟩ := (C38_new (K := K) n r c (by simpa [intLimit] using hlim)).2 (by omega)
    (by omega) (by omega)
  have h2' : s.N = n := by exact_mod_cast h2
  have h3' : s.nr = r := by exact_mod_cast h3
  have h4' : s.nc = c := by exact_mod_cast h4
  obtain ⟨s', e1, e2, e3, e4, e5⟩ := fillSeq_spec m n s (by omega) (by rw [h3', h4']; exact hm)
  exact ⟨s, s', h1, e1, e2.trans h2', e3.trans h3', e4.trans h4', by rw [h3', h4'] at e5; exact e5⟩

theorem toMat_of_read {s : MatrixSequence K} {r c k : Nat} {m : DMat K} (hk : k < s.N) (hr : s.nr = r)
    (hc : s.nc = c)
    (h : ∀ i j, i < r → j < c → s.read k i j = .ok (m.data.getD (j * m.rows + i) 0)) :
    (MapSequence.ofSequence s).toMat r c k = m.toMat r c := by
  ext i j
  have h1 := ((C38_ofSequence s).2.2.2 k i j _).2 (h i j i.2 j.2)
  rw [MapSequence.read_ok _ (by exact hk) (by rw [(C38_ofSequence s).2.1, hr]; exact i.2)
    (by rw [(C38_ofSequence s).2.2.1, hc]; exact j.2)] at h1
  simp only [MapSequence.toMat, DMat.toMat, Mat.get_ofFn]
  injection h1

theorem toVec_of_read {s : MatrixSequence K} {r k : Nat} {v : DVec K} (hk : k < s.N) (hr : s.nr = r)
    (hc : s.nc = 1)
    (h : ∀ i j, i < r → j < 1 → s.read k i j = .ok (v.toDMat.data.getD (j * v.toDMat.rows + i) 0)) :
    (MapSequence.ofSequence s).toVec r k = v.toVec r := by
  ext i
  have h1 := ((C38_ofSequence s).2.2.2 k i 0 _).2 (h i 0 i.2 (by omega))
  rw [MapSequence.read_ok _ (by exact hk) (by rw [(C38_ofSequence s).2.1, hr]; exact i.2)
    (by rw [(C38_ofSequence s).2.2.1, hc]; omega)] at h1
  simp only [MapSequence.toVec, DVec.toVec, Vec.get_ofFn]
  injection h1 with h1
  simpa [DVec.toDMat] using h1

/-- What a generator holds after a problem with horizon `N` was created from the stage `a`: the
sizes, data accepted by `FBstabMpc::Solve` of an object of these sizes together with any guess of the
right sizes, and the stage repeated over the horizon. -/
structure OcpGen.Holds (nx nu nc N : Nat) (a : StageInputs K) (g : OcpGen K) : Prop where
  populated : g.populated = true
  eqN : g.N = N
  eqnx : g.nx = nx
  eqnu : g.nu = nu
  eqnc : g.nc = nc
  eqnz : g.nz = (N + 1) * (nx + nu)
  eqnl : g.nl = (N + 1) * nx
  eqnv : g.nv = (N + 1) * nc
  fits : ∀ x : CallerVar K, x.z.size = g.nz → x.l.size = g.nl → x.v.size = g.nv →
    x.y.size = g.nv → MpcFits N nx nu nc g.prob.toRef x
  columns : g.prob.toRef.Columns
  repeated : Repeats a (g.prob.toRef.toData N nx nu nc)
  x0 : g.prob.x0 = a.x0

/-- C42: `CopyOverHorizon` with matching shapes does not throw and holds a well formed problem. -/
theorem C42_copy (a : StageInputs K) {nx nu nc : Nat} (h : a.Shaped nx nu nc) (hx : 0 < nx)
    (hu : 0 < nu) (hc : 0 < nc) (N : Nat) (hN : 0 < N)
    (hlim : (N + 1) * (nx + nu + nc) * (nx + nu + nc) < intLimit) (g : OcpGen K) :
    ∃ g', g.copyOverHorizon a N = .ok g' ∧ g'.Holds nx nu nc N a := by
  have lim : ∀ n r c, n ≤ N + 1 → r ≤ nx + nu + nc → c ≤ nx + nu + nc → n * r * c < intLimit :=
    fun n r c h1 h2 h3 => lt_of_le_of_lt (Nat.mul_le_mul (Nat.mul_le_mul h1 h2) h3) hlim
  have vs : ∀ (v : DVec K) n, v.size = n → v.toDMat.rows = n ∧ v.toDMat.cols = 1 :=
    fun v n h => ⟨h, rfl⟩
  obtain ⟨Q, Q', q1, q2, q3, q4, q5, q6⟩ := new_fill (fun _ => a.Q) (N + 1) nx nx hx hx
    (lim _ _ _ (by omega) (by omega) (by omega)) fun _ _ => h.Q
  obtain ⟨R, R', r1, r2, r3, r4, r5, r6⟩ := new_fill (fun _ => a.R) (N + 1) nu nu hu hu
    (lim _ _ _ (by omega) (by omega) (by omega)) fun _ _ => h.R
  obtain ⟨S, S', s1, s2, s3, s4, s5, s6⟩ := new_fill (fun _ => a.S) (N + 1) nu nx hu hx
    (lim _ _ _ (by omega) (by omega) (by omega)) fun _ _ => h.S
  obtain ⟨q, q', t1, t2, t3, t4, t5, t6⟩ := new_fill (fun _ => a.q.toDMat) (N + 1) nx 1 hx one_pos
    (lim _ _ _ (by omega) (by omega) (by omega)) fun _ _ => vs _ _ h.q
  obtain ⟨r, r', u1, u2, u3, u4, u5, u6⟩ := new_fill (fun _ => a.r.toDMat) (N + 1) nu 1 hu one_pos
    (lim _ _ _ (by omega) (by omega) (by omega)) fun _ _ => vs _ _ h.r
  obtain ⟨A, A', a1, a2, a3, a4, a5, a6⟩ := new_fill (fun _ => a.A) N nx nx hx hx
    (lim _ _ _ (by omega) (by omega) (by omega)) fun _ _ => h.A
  obtain ⟨B, B', b1, b2, b3, b4, b5, b6⟩ := new_fill (fun _ => a.B) N nx nu hx hu
    (lim _ _ _ (by omega) (by omega) (by omega)) fun _ _ => h.B
  obtain ⟨c, c', c1, c2, c3, c4, c5, c6⟩ := new_fill (fun _ => a.c.toDMat) N nx 1 hx one_pos
    (lim _ _ _ (by omega) (by omega) (by omega)) fun _ _ => vs _ _ h.c
  obtain ⟨E, E', e1, e2, e3, e4, e5, e6⟩ := new_fill
    (fun i => if i = 0 then DMat.zero a.E.rows a.E.cols else a.E) (N + 1) nc nx hc hx
    (lim _ _ _ (by omega) (by omega) (by omega)) fun i _ => by
      split
      · exact h.E
      · exact h.E
  obtain ⟨L, L', l1, l2, l3, l4, l5, l6⟩ := new_fill (fun _ => a.L) (N + 1) nc nu hc hu
    (lim _ _ _ (by omega) (by omega) (by omega)) fun _ _ => h.L
  obtain ⟨d, d', d1, d2, d3, d4, d5, d6⟩ := new_fill (fun _ => a.d.toDMat) (N + 1) nc 1 hc one_pos
    (lim _ _ _ (by omega) (by omega) (by omega)) fun _ _ => vs _ _ h.d
  refine ⟨{ g with
    prob := ⟨Q', R', S', q', r', A', B', c', E', L', d', a.x0⟩
    N := N, nx := nx, nu := nu, nc := nc
    nz := (nx + nu) * (N + 1), nl := nx * (N + 1), nv := nc * (N + 1), populated := true }, ?_, ?_⟩
  · unfold OcpGen.copyOverHorizon
    simp only [h.Q.1, h.R.1, h.E.1] at *
    push_cast at *
    simp only [q1, r1, s1, t1, u1, a1, b1, c1, e1, l1, d1, bind, Except.bind]
    simp only [q2, r2, s2, t2, u2, a2, b2, c2, e2, l2, d2, pure, Except.pure]
  · refine ⟨rfl, rfl, rfl, rfl, rfl, Nat.mul_comm _ _, Nat.mul_comm _ _, Nat.mul_comm _ _, ?_,
      ⟨t5, u5, c5, d5⟩, ?_, rfl⟩
    · intro x x1 x2 x3 x4
      exact ⟨⟨q3, q4, q5⟩, ⟨r3, r4, r5⟩, ⟨s3, s4, s5⟩, ⟨t3, t4⟩, ⟨u3, u4⟩, ⟨a3, a4, a5⟩,
        ⟨b3, b4, b5⟩, ⟨c3, c4⟩, ⟨e3, e4, e5⟩, ⟨l3, l4, l5⟩, ⟨d3, d4⟩, h.x0,
        x1.trans (Nat.mul_comm _ _), x2.trans (Nat.mul_comm _ _), x3.trans (Nat.mul_comm _ _),
        x4.trans (Nat.mul_comm _ _)⟩
    · constructor
      case Ezero =>
        intro i j
        have := toMat_of_read (k := 0) (m := DMat.zero a.E.rows a.E.cols) (by omega) e4 e5
          (fun i j hi hj => e6 0 (by omega) i j hi hj)
        simp only [MpcProblem.toData, MpcProblemData.toRef, Vec.get_ofFn, Fin.val_zero]
        rw [this]
        simp only [DMat.toMat, DMat.zero, DMat.ofFn, Mat.get_ofFn, Array.getD_eq_getD_getElem?,
          Array.getElem?_ofFn]
        split <;> rfl
      case E =>
        intro i
        have := toMat_of_read (k := i.1 + 1) (m := a.E) (by omega) e4 e5 (fun i' j hi hj => by
          have := e6 (i.1 + 1) (by omega) i' j hi hj
          rwa [if_neg (Nat.succ_ne_zero _)] at this)
        simpa only [MpcProblem.toData, MpcProblemData.toRef, Vec.get_ofFn, Fin.val_succ] using this
      case x0 => rfl
      all_goals
        intro i
        simp only [MpcProblem.toData, MpcProblemData.toRef, Vec.get_ofFn]
      case Q =>
        exact toMat_of_read (k := i.1) (by rw [q3]; exact i.2) q4 q5
          (fun i' j hi hj => q6 i.1 i.2 i' j hi hj)
      case R =>
        exact toMat_of_read (k := i.1) (by rw [r3]; exact i.2) r4 r5
          (fun i' j hi hj => r6 i.1 i.2 i' j hi hj)
      case S =>
        exact toMat_of_read (k := i.1) (by rw [s3]; exact i.2) s4 s5
          (fun i' j hi hj => s6 i.1 i.2 i' j hi hj)
      case L =>
        exact toMat_of_read (k := i.1) (by rw [l3]; exact i.2) l4 l5
          (fun i' j hi hj => l6 i.1 i.2 i' j hi hj)
      case A =>
        exact toMat_of_read (k := i.1) (by rw [a3]; exact i.2) a4 a5
          (fun i' j hi hj => a6 i.1 i.2 i' j hi hj)
      case B =>
        exact toMat_of_read (k := i.1) (by rw [b3]; exact i.2) b4 b5
          (fun i' j hi hj => b6 i.1 i.2 i' j hi hj)
      case q =>
        exact toVec_of_read (k := i.1) (by rw [t3]; exact i.2) t4 t5
          (fun i' j hi hj => t6 i.1 i.2 i' j hi hj)
      case r =>
        exact toVec_of_read (k := i.1) (by rw [u3]; exact i.2) u4 u5
          (fun i' j hi hj => u6 i.1 i.2 i' j hi hj)
      case c =>
        exact toVec_of_read (k := i.1) (by rw [c3]; exact i.2) c4 c5
          (fun i' j hi hj => c6 i.1 i.2 i' j hi hj)
      case d =>
        exact toVec_of_read (k := i.1) (by rw [d3]; exact i.2) d4 d5
          (fun i' j hi hj => d6 i.1 i.2 i' j hi hj)

/-! ## The four problems -/

theorem doubleIntegrator_shaped : (doubleIntegratorStage : StageInputs K).Shaped 2 1 6 := by
  constructor <;> first | exact ⟨rfl, rfl⟩ | rfl

theorem servoMotor_shaped : (servoMotorStage : StageInputs K).Shaped 4 1 4 := by
  constructor <;> first | exact ⟨rfl, rfl⟩ | rfl

theorem spacecraft_shaped : (spacecraftStage : StageInputs K).Shaped 6 3 12 := by
  constructor <;> first | exact ⟨rfl, rfl⟩ | rfl

theorem copolymerization_shaped (sine : Nat → K) :
    (copolymerizationStage sine).Shaped 18 5 10 := by
  constructor <;> first | exact ⟨rfl, rfl⟩ | simp [copolymerizationStage, DVec.size]

/-- C42: a problem creator throws exactly for `N <= 0`; otherwise, as long as the horizon does not
overflow an `int`, the generator holds the problem. -/
theorem C42_doubleIntegrator (g : OcpGen K) (N : Int) (hlim : (N + 1) * 81 < 2 ^ 31) :
    ((∃ e, g.doubleIntegrator N = .error e) ↔ N ≤ 0) ∧
    (0 < N → ∃ g', g.doubleIntegrator N = .ok g' ∧ g'.Holds 2 1 6 N.toNat doubleIntegratorStage) := by
  have hI : intLimit = 2 ^ 31 := rfl
  unfold OcpGen.doubleIntegrator
  have pos : 0 < N → ∃ g', g.copyOverHorizon doubleIntegratorStage N.toNat = .ok g' ∧
      g'.Holds 2 1 6 N.toNat doubleIntegratorStage := fun h =>
    C42_copy _ doubleIntegrator_shaped (by norm_num) (by norm_num) (by norm_num) _ (by omega)
      (by omega) g
  constructor
  · by_cases h : N ≤ 0
    · simp only [h, if_true, iff_true]; exact ⟨_, rfl⟩
    · obtain ⟨g', h1, -⟩ := pos (by omega)
      simp only [h, if_false, iff_false, h1]
      rintro ⟨e, he⟩
      cases he
  · intro h
    obtain ⟨g', h1, h2⟩ := pos h
    have h' : ¬N ≤ 0 := by omega
    simp only [h', if_false, h1]
    exact ⟨_, rfl, ⟨h2.populated, h2.eqN, h2.eqnx, h2.eqnu, h2.eqnc, h2.eqnz, h2.eqnl, h2.eqnv,
      h2.fits, h2.columns, h2.repeated, h2.x0⟩⟩

theorem C42_servoMotor (g : OcpGen K) (N : Int) (hlim : (N + 1) * 81 < 2 ^ 31) :
    ((∃ e, g.servoMotor N = .error e) ↔ N ≤ 0) ∧
    (0 < N → ∃ g', g.servoMotor N = .ok g' ∧ g'.Holds 4 1 4 N.toNat servoMotorStage) := by
  have hI : intLimit = 2 ^ 31 := rfl
  unfold OcpGen.servoMotor
  have pos : 0 < N → ∃ g', g.copyOverHorizon servoMotorStage N.toNat = .ok g' ∧
      g'.Holds 4 1 4 N.toNat servoMotorStage := fun h =>
    C42_copy _ servoMotor_shaped (by norm_num) (by norm_num) (by norm_num) _ (by omega)
      (by omega) g
  constructor
  · by_cases h : N ≤ 0
    · simp only [h, if_true, iff_true]; exact ⟨_, rfl⟩
    · obtain ⟨g', h1, -⟩ := pos (by omega)
      simp only [h, if_false, iff_false, h1]
      rintro ⟨e, he⟩
      cases he
  · intro h
    obtain ⟨g', h1, h2⟩ := pos h
    have h' : ¬N ≤ 0 := by omega
    simp only [h', if_false, h1]
    exact ⟨_, rfl, ⟨h2.populated, h2.eqN, h2.eqnx, h2.eqnu, h2.eqnc, h2.eqnz, h2.eqnl, h2.eqnv,
      h2.fits, h2.columns, h2.repeated, h2.x0⟩⟩

theorem C42_spacecraft (g : OcpGen K) (N : Int) (hlim : (N + 1) * 441 < 2 ^ 31) :
    ((∃ e, g.spacecraft N = .error e) ↔ N ≤ 0) ∧
    (0 < N → ∃ g', g.spacecraft N = .ok g' ∧ g'.Holds 6 3 12 N.toNat spacecraftStage) := by
  have hI : intLimit = 2 ^ 31 := rfl
  unfold OcpGen.spacecraft
  have pos : 0 < N → ∃ g', g.copyOverHorizon spacecraftStage N.toNat = .ok g' ∧
      g'.Holds 6 3 12 N.toNat spacecraftStage := fun h =>
    C42_copy _ spacecraft_shaped (by norm_num) (by norm_num) (by norm_num) _ (by omega)
      (by omega) g
  constructor
  · by_cases h : N ≤ 0
    · simp only [h, if_true, iff_true]; exact ⟨_, rfl⟩
    · obtain ⟨g', h1, -⟩ := pos (by omega)
      simp only [h, if_false, iff_false, h1]
      rintro ⟨e, he⟩
      cases he
  · intro h
    obtain ⟨g', h1, h2⟩ := pos h
    have h' : ¬N ≤ 0 := by omega
    simp only [h', if_false, h1]
    exact ⟨_, rfl, ⟨h2.populated, h2.eqN, h2.eqnx, h2.eqnu, h2.eqnc, h2.eqnz, h2.eqnl, h2.eqnv,
      h2.fits, h2.columns, h2.repeated, h2.x0⟩⟩

theorem C42_copolymerization (sine : Nat → K) (g : OcpGen K) (N : Int) (hlim : (N + 1) * 1089 < 2 ^ 31) :
    ((∃ e, g.copolymerization sine N = .error e) ↔ N ≤ 0) ∧
    (0 < N → ∃ g', g.copolymerization sine N = .ok g' ∧ g'.Holds 18 5 10 N.toNat (copolymerizationStage sine)) := by
  have hI : intLimit = 2 ^ 31 := rfl
  unfold OcpGen.copolymerization
  have pos : 0 < N → ∃ g', g.copyOverHorizon (copolymerizationStage sine) N.toNat = .ok g' ∧
      g'.Holds 18 5 10 N.toNat (copolymerizationStage sine) := fun h =>
    C42_copy _ (copolymerization_shaped sine) (by norm_num) (by norm_num) (by norm_num) _ (by omega)
      (by omega) g
  constructor
  · by_cases h : N ≤ 0
    · simp only [h, if_true, iff_true]; exact ⟨_, rfl⟩
    · obtain ⟨g', h1, -⟩ := pos (by omega)
      simp only [h, if_false, iff_false, h1]
      rintro ⟨e, he⟩
      cases he
  · intro h
    obtain ⟨g', h1, h2⟩ := pos h
    have h' : ¬N ≤ 0 := by omega
    simp only [h', if_false, h1]
    exact ⟨_, rfl, ⟨h2.populated, h2.eqN, h2.eqnx, h2.eqnu, h2.eqnc, h2.eqnz, h2.eqnl, h2.eqnv,
      h2.fits, h2.columns, h2.repeated, h2.x0⟩⟩

omit [Scalar K] in
/-- C42: the problem sizes reported are those of the problem held. -/
theorem C42_problemSize [Scalar K] (g : OcpGen K) {nx nu nc N : Nat} {a : StageInputs K} (h : g.Holds nx nu nc N a) :
    g.problemSize = (N, nx, nu, nc) := by
  rw [OcpGen.problemSize, h.eqN, h.eqnx, h.eqnu, h.eqnc]

omit [Scalar K] in
/-- C42: before a problem was created the getters throw, afterwards they return the data. -/
theorem C42_getters (g : OcpGen K) :
    ((∃ e, g.getFBstabInput = .error e) ↔ g.populated = false) ∧
    (g.populated = true → g.getFBstabInput = .ok g.prob ∧ g.getFBstabInputRef = .ok g.prob.toRef) ∧
    (OcpGen.new : OcpGen K).populated = false := by
  refine ⟨?_, ?_, rfl⟩
  · unfold OcpGen.getFBstabInput
    cases g.populated <;> simp
  · intro h
    simp [OcpGen.getFBstabInput, OcpGen.getFBstabInputRef, h]

end Fbstab
