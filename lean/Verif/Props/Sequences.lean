import Verif.Props.Isolation

/-!
# C38: matrix sequences

In any type of numbers.
-/

namespace Fbstab
variable {K : Type} [Zero K]

/-! ## Construction -/

/-- C38: the constructor of `MatrixSequence` throws exactly when the length is negative or a row or
column count is not positive (as long as the number of elements fits in an `int`); otherwise the
sequence has the sizes asked for and every element reads as zero. -/
theorem C38_new (len nr nc : Int) (hlim : len.toNat * nr.toNat * nc.toNat < 2 ^ 31) :
    ((∃ m, MatrixSequence.new (K := K) len nr nc = .error (.runtimeError m)) ↔
      len < 0 ∨ nr ≤ 0 ∨ nc ≤ 0) ∧
    (0 ≤ len → 0 < nr → 0 < nc → ∃ s : MatrixSequence K, MatrixSequence.new len nr nc = .ok s ∧
      (s.N : Int) = len ∧ (s.nr : Int) = nr ∧ (s.nc : Int) = nc ∧ s.size = s.N * s.nr * s.nc ∧
      ∀ k i j, 0 ≤ k → k < len → i < s.nr → j < s.nc → s.read k i j = .ok 0) := by
  change _ < intLimit at hlim
  unfold MatrixSequence.new
  constructor
  · by_cases h1 : len < 0
    · simp [h1]
    · by_cases h2 : nr ≤ 0 ∨ nc ≤ 0
      · simp [h1, h2]
      · simp [h1, h2, not_le.2 hlim]
  · intro h1 h2 h3
    have h2' : ¬(nr ≤ 0 ∨ nc ≤ 0) := by omega
    refine ⟨⟨len.toNat, nr.toNat, nc.toNat, Array.replicate (len.toNat * nr.toNat * nc.toNat) 0,
      by simp⟩, by simp [not_lt.2 h1, h2', not_le.2 hlim], ?_, ?_, ?_, rfl, ?_⟩
    · exact Int.toNat_of_nonneg h1
    · exact Int.toNat_of_nonneg h2.le
    · exact Int.toNat_of_nonneg h3.le
    · intro k i j hk1 hk2 hi hj
      have : ¬(k < 0 ∨ (len.toNat : Int) ≤ k) := by omega
      simp only [MatrixSequence.read, MatrixSequence.checkIndex, this, if_false]
      change (if i < nr.toNat ∧ j < nc.toNat then _ else _) = _
      rw [if_pos ⟨hi, hj⟩]
      simp [Array.getD, pure, Except.pure]

/-- C38: from `2^31` elements on the number of elements overflows an `int`: undefined behaviour. -/
theorem C38_overflow (len nr nc : Int) (h1 : 0 < len) (h2 : 0 < nr) (h3 : 0 < nc)
    (hlim : 2 ^ 31 ≤ len.toNat * nr.toNat * nc.toNat) :
    (∃ w, MatrixSequence.new (K := K) len nr nc = .error (.undefinedBehaviour w)) ∧
    ∀ d : Array K, ∃ w, MapSequence.new (some d) len nr nc = .error (.undefinedBehaviour w) := by
  change intLimit ≤ _ at hlim
  have h : ¬(nr ≤ 0 ∨ nc ≤ 0) := by omega
  constructor
  · unfold MatrixSequence.new
    rw [if_neg (by omega), if_neg h, if_pos hlim]
    exact ⟨_, rfl⟩
  · intro d
    unfold MapSequence.new
    rw [if_neg (by omega), if_neg h]
    simp only [hlim, if_true]
    exact ⟨_, rfl⟩

omit [Zero K] in
/-- C38: the constructor of `MapMatrixSequence` throws exactly when the pointer is null or a length,
row or column count is not positive (as long as the number of elements fits in an `int` and the
block of memory is as large as documented). -/
theorem C38_map_new (data : Option (Array K)) (len nr nc : Int)
    (hlim : len.toNat * nr.toNat * nc.toNat < 2 ^ 31)
    (hblock : ∀ d, data = some d → len.toNat * nr.toNat * nc.toNat ≤ d.size) :
    ((∃ m, MapSequence.new data len nr nc = .error (.runtimeError m)) ↔
      len ≤ 0 ∨ nr ≤ 0 ∨ nc ≤ 0 ∨ data = none) ∧
    (0 < len → 0 < nr → 0 < nc → ∀ d, data = some d → ∃ s, MapSequence.new data len nr nc = .ok s ∧
      s.data = some d ∧ (s.N : Int) = len ∧ (s.nr : Int) = nr ∧ (s.nc : Int) = nc) := by
  change _ < intLimit at hlim
  unfold MapSequence.new
  constructor
  · by_cases h1 : len ≤ 0
    · simp [h1]
    · by_cases h2 : nr ≤ 0 ∨ nc ≤ 0
      · simp only [h1, if_false, h2, if_true, false_or]
        constructor
        · intro _; rcases h2 with h | h <;> simp [h]
        · intro _; exact ⟨_, rfl⟩
      · cases hd : data with
        | none => simp [h1, h2]
        | some d =>
          have := hblock d hd
          simp [h1, h2, not_le.2 hlim, this]
  · rintro h1 h2 h3 d rfl
    have := hblock d rfl
    have h2' : ¬(nr ≤ 0 ∨ nc ≤ 0) := by omega
    simp only [not_le.2 h1, if_false, h2', not_le.2 hlim, this, dif_pos]
    refine ⟨_, rfl, rfl, ?_, ?_, ?_⟩
    · exact Int.toNat_of_nonneg h1.le
    · exact Int.toNat_of_nonneg h2.le
    · exact Int.toNat_of_nonneg h3.le

/-! ## Indexing -/

/-- C38: `operator()` throws `std::out_of_range` exactly for indices outside `[0, length())`, and
otherwise `s(k)(i, j)` is element `k * rows * cols + j * rows + i` of the data. -/
theorem C38_read (s : MatrixSequence K) (k : Int) (i j : Nat) (hi : i < s.nr) (hj : j < s.nc) :
    ((∃ m, s.read k i j = .error (.outOfRange m)) ↔ k < 0 ∨ (s.N : Int) ≤ k) ∧
    (∀ n : Nat, k = n → n < s.N → ∃ h : n * (s.nr * s.nc) + j * s.nr + i < s.data.size,
      s.read k i j = .ok (s.data[n * (s.nr * s.nc) + j * s.nr + i])) := by
  constructor
  · by_cases h : k < 0 ∨ (s.N : Int) ≤ k
    · simp only [MatrixSequence.read, MatrixSequence.checkIndex, h, if_true, iff_true]
      exact ⟨_, rfl⟩
    · simp only [MatrixSequence.read, MatrixSequence.checkIndex, h, if_false, iff_false]
      change ¬∃ m, (if i < s.nr ∧ j < s.nc then _ else _) = _
      rw [if_pos ⟨hi, hj⟩]
      rintro ⟨m, hm⟩
      cases hm
  · rintro n rfl hn
    have hlt : n * (s.nr * s.nc) + j * s.nr + i < s.data.size := by
      rw [s.size_eq]
      have h1 : (n + 1) * (s.nr * s.nc) ≤ s.N * (s.nr * s.nc) := Nat.mul_le_mul_right _ hn
      have h2 : (j + 1) * s.nr ≤ s.nc * s.nr := Nat.mul_le_mul_right _ hj
      rw [Nat.mul_assoc, Nat.mul_comm s.nr s.nc] at *
      lia
    refine ⟨hlt, ?_⟩
    have : ¬((n : Int) < 0 ∨ (s.N : Int) ≤ n) := by omega
    simp only [MatrixSequence.read, MatrixSequence.checkIndex, this, if_false]
    change (if i < s.nr ∧ j < s.nc then _ else _) = _
    rw [if_pos ⟨hi, hj⟩]
    simp only [Int.toNat_natCast, Nat.mul_assoc] at hlt ⊢
    simp [Array.getD, hlt, pure, Except.pure]

/-- The same for the map. -/
theorem C38_map_read (s : MapSequence K) (k : Int) (i j : Nat) (hi : i < s.nr) (hj : j < s.nc) :
    ((∃ m, s.read k i j = .error (.outOfRange m)) ↔ k < 0 ∨ (s.N : Int) ≤ k) ∧
    (∀ n : Nat, k = n → n < s.N → ∃ d, s.data = some d ∧
      ∃ h : n * (s.nr * s.nc) + j * s.nr + i < d.size,
      s.read k i j = .ok (d[n * (s.nr * s.nc) + j * s.nr + i])) := by
  constructor
  · by_cases h : k < 0 ∨ (s.N : Int) ≤ k
    · simp only [MapSequence.read, h, if_true, iff_true]
      exact ⟨_, rfl⟩
    · simp only [MapSequence.read, h, if_false, iff_false, hi, hj, and_self, if_true]
      rintro ⟨m, hm⟩
      split at hm <;> cases hm
  · rintro n rfl hn
    obtain ⟨d, hd⟩ := Option.isSome_iff_exists.1 (s.nonnull (by omega))
    have hlt : n * (s.nr * s.nc) + j * s.nr + i < d.size := by
      refine lt_of_lt_of_le ?_ (s.block d hd)
      have h1 : (n + 1) * (s.nr * s.nc) ≤ s.N * (s.nr * s.nc) := Nat.mul_le_mul_right _ hn
      have h2 : (j + 1) * s.nr ≤ s.nc * s.nr := Nat.mul_le_mul_right _ hj
      rw [Nat.mul_assoc, Nat.mul_comm s.nr s.nc] at *
      lia
    refine ⟨d, hd, hlt, ?_⟩
    have : ¬((n : Int) < 0 ∨ (s.N : Int) ≤ n) := by omega
    simp only [MapSequence.read, this, if_false, hd, hi, hj, and_self, if_true]
    simp only [Int.toNat_natCast, Nat.mul_assoc] at hlt ⊢
    simp [Array.getD, hlt]

/-- Two positions of the data coincide only for the same matrix, row and column. -/
theorem seq_index_inj {nr nc k i j k' i' j' : Nat} (hi : i < nr) (hj : j < nc) (hi' : i' < nr)
    (hj' : j' < nc) (h : k * nr * nc + j * nr + i = k' * nr * nc + j' * nr + i') :
    k = k' ∧ i = i' ∧ j = j' := by
  have e : ∀ k i j, k * nr * nc + j * nr + i = (k * nc + j) * nr + i := by intros; ring
  rw [e, e] at h
  have h1 : (k * nc + j) * nr + i < ((k * nc + j) + 1) * nr := by lia
  have hr : 0 < nr := by lia
  have a1 : ((k * nc + j) * nr + i) % nr = i := by rw [Nat.mul_add_mod', Nat.mod_eq_of_lt hi]
  have a2 : ((k' * nc + j') * nr + i') % nr = i' := by rw [Nat.mul_add_mod', Nat.mod_eq_of_lt hi']
  have hii : i = i' := by rw [← a1, h, a2]
  subst hii
  have b : k * nc + j = k' * nc + j' := Nat.eq_of_mul_eq_mul_right hr (by lia)
  have c1 : (k * nc + j) % nc = j := by rw [Nat.mul_add_mod', Nat.mod_eq_of_lt hj]
  have c2 : (k' * nc + j') % nc = j' := by rw [Nat.mul_add_mod', Nat.mod_eq_of_lt hj']
  have hjj : j = j' := by rw [← c1, b, c2]
  subst hjj
  exact ⟨Nat.eq_of_mul_eq_mul_right (by lia : 0 < nc) (by lia), rfl, rfl⟩

/-- C38: writing an element throws for exactly the same indices as reading; after a successful write
that element reads as written, every other element of every matrix is what it was, and the sizes
are unchanged. -/
theorem C38_write (s : MatrixSequence K) (k : Int) (i j : Nat) (hi : i < s.nr) (hj : j < s.nc)
    (a : K) :
    ((∃ m, s.write k i j a = .error (.outOfRange m)) ↔ k < 0 ∨ (s.N : Int) ≤ k) ∧
    (0 ≤ k → k < s.N → ∃ s', s.write k i j a = .ok s' ∧ s'.N = s.N ∧ s'.nr = s.nr ∧ s'.nc = s.nc ∧
      ∀ k' i' j', s'.read k' i' j' = if k' = k ∧ i' = i ∧ j' = j then .ok a else s.read k' i' j') := by
  constructor
  · by_cases h : k < 0 ∨ (s.N : Int) ≤ k
    · simp only [MatrixSequence.write, MatrixSequence.checkIndex, h, if_true, iff_true]
      exact ⟨_, rfl⟩
    · simp only [MatrixSequence.write, MatrixSequence.checkIndex, h, if_false, iff_false]
      change ¬∃ m, (if i < s.nr ∧ j < s.nc then _ else _) = _
      rw [if_pos ⟨hi, hj⟩]
      rintro ⟨m, hm⟩
      cases hm
  · intro h1 h2
    obtain ⟨n, rfl⟩ := Int.eq_ofNat_of_zero_le h1
    have hn : n < s.N := by exact_mod_cast h2
    obtain ⟨hlt, -⟩ := (C38_read s n i j hi hj).2 n rfl hn
    have hk : ¬((n : Int) < 0 ∨ (s.N : Int) ≤ n) := by omega
    refine ⟨{ s with
      data := s.data.setIfInBounds (n * s.nr * s.nc + j * s.nr + i) a
      size_eq := by simp [s.size_eq] }, ?_, rfl, rfl, rfl, ?_⟩
    · simp only [MatrixSequence.write, MatrixSequence.checkIndex, hk, if_false]
      change (if i < s.nr ∧ j < s.nc then _ else _) = _
      rw [if_pos ⟨hi, hj⟩]
      rfl
    · intro k' i' j'
      simp only [MatrixSequence.read, MatrixSequence.checkIndex]
      by_cases hk' : k' < 0 ∨ (s.N : Int) ≤ k'
      · have : ¬(k' = (n : Int) ∧ i' = i ∧ j' = j) := by omega
        simp only [hk', if_true, this, if_false]
        rfl
      · obtain ⟨n', rfl⟩ := Int.eq_ofNat_of_zero_le (show 0 ≤ k' by omega)
        simp only [hk', if_false]
        change (if i' < s.nr ∧ j' < s.nc then _ else _) = if _ then _ else
          (if i' < s.nr ∧ j' < s.nc then _ else _)
        by_cases hij : i' < s.nr ∧ j' < s.nc
        · simp only [hij, and_self, if_true, Int.toNat_natCast, Nat.cast_inj]
          by_cases heq : n' = n ∧ i' = i ∧ j' = j
          · obtain ⟨rfl, rfl, rfl⟩ := heq
            simp only [and_self, if_true]
            rw [← Nat.mul_assoc] at hlt
            simp [Array.getD, hlt, pure, Except.pure]
          · rw [if_neg heq]
            have hne : n * s.nr * s.nc + j * s.nr + i ≠ n' * s.nr * s.nc + j' * s.nr + i' := by
              intro h
              obtain ⟨h1, h2, h3⟩ := seq_index_inj hi hj hij.1 hij.2 h
              exact heq ⟨h1.symm, h2.symm, h3.symm⟩
            simp [Array.getD_eq_getD_getElem?, Array.getElem?_setIfInBounds_ne hne]
        · have : ¬(((n' : Nat) : Int) = n ∧ i' = i ∧ j' = j) := by
            rintro ⟨-, rfl, rfl⟩; exact hij ⟨hi, hj⟩
          simp only [hij, if_false, this]

/-- C38: assigning a matrix of the right size, `s(k) = m`. -/
theorem C38_assign (s : MatrixSequence K) (k : Int) (m : DMat K) (hr : m.rows = s.nr)
    (hc : m.cols = s.nc) (h1 : 0 ≤ k) (h2 : k < s.N) :
    ∃ s', s.assign k m = .ok s' ∧ s'.N = s.N ∧ s'.nr = s.nr ∧ s'.nc = s.nc ∧
      ∀ k' i j, i < s.nr → j < s.nc →
        s'.read k' i j = if k' = k then .ok (m.data.getD (j * m.rows + i) 0) else s.read k' i j := by
  obtain ⟨n, rfl⟩ := Int.eq_ofNat_of_zero_le h1
  have hn : n < s.N := by exact_mod_cast h2
  have hk : ¬((n : Int) < 0 ∨ (s.N : Int) ≤ n) := by omega
  refine ⟨{ s with
      data := Array.ofFn (n := s.N * s.nr * s.nc) fun p =>
        if p.1 / (s.nr * s.nc) = n then m.data.getD (p.1 % (s.nr * s.nc)) 0 else s.data.getD p.1 0
      size_eq := by simp }, ?_, rfl, rfl, rfl, ?_⟩
  · simp only [MatrixSequence.assign, MatrixSequence.checkIndex, hk, if_false]
    change (if m.rows = s.nr ∧ m.cols = s.nc then _ else _) = _
    rw [if_pos ⟨hr, hc⟩]
    rfl
  · intro k' i j hi hj
    by_cases hk' : k' < 0 ∨ (s.N : Int) ≤ k'
    · have : ¬k' = (n : Int) := by omega
      simp only [MatrixSequence.read, MatrixSequence.checkIndex, hk', if_true, this, if_false]
      rfl
    · obtain ⟨n', rfl⟩ := Int.eq_ofNat_of_zero_le (show 0 ≤ k' by omega)
      have hn' : n' < s.N := by omega
      have hlt : n' * s.nr * s.nc + j * s.nr + i < s.N * s.nr * s.nc := by
        obtain ⟨hlt, -⟩ := (C38_read s n' i j hi hj).2 n' rfl hn'
        rw [s.size_eq, ← Nat.mul_assoc] at hlt
        exact hlt
      simp only [MatrixSequence.read, MatrixSequence.checkIndex, hk', if_false]
      change (if i < s.nr ∧ j < s.nc then _ else _) = if _ then _ else
          (if i < s.nr ∧ j < s.nc then _ else _)
      simp only [hi, hj, and_self, if_true, Int.toNat_natCast, Nat.cast_inj]
      have hin : j * s.nr + i < s.nr * s.nc := by
        have h2 : (j + 1) * s.nr ≤ s.nc * s.nr := Nat.mul_le_mul_right _ hj
        rw [Nat.mul_comm s.nr s.nc]; lia
      have hd : (n' * s.nr * s.nc + j * s.nr + i) / (s.nr * s.nc) = n' := by
        rw [Nat.mul_assoc, Nat.add_assoc, Nat.mul_comm n', Nat.mul_add_div (by lia),
          Nat.div_eq_of_lt hin, Nat.add_zero]
      have hm : (n' * s.nr * s.nc + j * s.nr + i) % (s.nr * s.nc) = j * s.nr + i := by
        rw [Nat.mul_assoc, Nat.add_assoc, Nat.mul_comm n', Nat.mul_add_mod, Nat.mod_eq_of_lt hin]
      rw [Array.getD_eq_getD_getElem?, Array.getElem?_eq_getElem (by simpa using hlt)]
      simp only [Array.getElem_ofFn, Option.getD_some, hd, hm, hr]
      split <;> rfl

/-! ## Maps of sequences -/

/-- C38: a `MapMatrixSequence` of a `MatrixSequence` has the same sizes and reads the same values;
on bad indices both throw `std::out_of_range`. -/
theorem C38_ofSequence (s : MatrixSequence K) :
    (MapSequence.ofSequence s).N = s.N ∧ (MapSequence.ofSequence s).nr = s.nr ∧
    (MapSequence.ofSequence s).nc = s.nc ∧
    ∀ k i j a, (MapSequence.ofSequence s).read k i j = .ok a ↔ s.read k i j = .ok a := by
  refine ⟨rfl, rfl, rfl, fun k i j a => ?_⟩
  by_cases h : k < 0 ∨ (s.N : Int) ≤ k
  · simp only [MapSequence.read, MapSequence.ofSequence, MatrixSequence.read,
      MatrixSequence.checkIndex, h, if_true]
    constructor <;> intro h <;> cases h
  · simp only [MapSequence.read, MapSequence.ofSequence, MatrixSequence.read,
      MatrixSequence.checkIndex, h, if_false]
    change (if i < s.nr ∧ j < s.nc then _ else _) = _ ↔ (if i < s.nr ∧ j < s.nc then _ else _) = _
    by_cases hij : i < s.nr ∧ j < s.nc
    · rw [if_pos hij, if_pos hij]; rfl
    · rw [if_neg hij, if_neg hij]; constructor <;> intro h <;> cases h

/-- A map holding the values of an owning sequence. -/
structure MatrixSequence.HeldBy (s : MatrixSequence K) (m : MapSequence K) : Prop where
  N : m.N = s.N
  nr : m.nr = s.nr
  nc : m.nc = s.nc
  read : ∀ k i j a, m.read k i j = .ok a ↔ s.read k i j = .ok a

theorem MatrixSequence.HeldBy.same {s : MatrixSequence K} {m : MapSequence K} (h : s.HeldBy m) :
    (MapSequence.ofSequence s).SameValues m where
  N := h.N
  nr := h.nr
  nc := h.nc
  read k i j := by
    have hr : ∀ a, m.read k i j = .ok a ↔ (MapSequence.ofSequence s).read k i j = .ok a :=
      fun a => (h.read k i j a).trans ((C38_ofSequence s).2.2.2 k i j a).symm
    by_cases hk : k < 0 ∨ (s.N : Int) ≤ k
    · have hk' : k < 0 ∨ (m.N : Int) ≤ k := by rw [h.N]; exact hk
      simp [MapSequence.read, MapSequence.ofSequence, hk, hk']
    · by_cases hij : i < s.nr ∧ j < s.nc
      · have : (MapSequence.ofSequence s).read k i j =
            .ok (s.data.getD (k.toNat * s.nr * s.nc + j * s.nr + i) 0) := by
          simp [MapSequence.read, MapSequence.ofSequence, hk, hij]
        rw [this]
        exact (hr _).2 this
      · have hk' : ¬(k < 0 ∨ (m.N : Int) ≤ k) := by rw [h.N]; exact hk
        have hij' : ¬(i < m.nr ∧ j < m.nc) := by rw [h.nr, h.nc]; exact hij
        obtain ⟨d, hd⟩ := Option.isSome_iff_exists.1 (m.nonnull (by rw [h.N]; omega))
        simp only [MapSequence.read, MapSequence.ofSequence, hk, hk', if_false, hd, hij, hij']

end Fbstab

namespace Fbstab
variable {K : Type} [Scalar K]

/-- The maps in `m` hold the values of the sequences in `p`. -/
structure MpcProblemData.HeldBy (p : MpcProblemData K) (m : MpcProblem K) : Prop where
  Q : p.Q.HeldBy m.Q
  R : p.R.HeldBy m.R
  S : p.S.HeldBy m.S
  q : p.q.HeldBy m.q
  r : p.r.HeldBy m.r
  A : p.A.HeldBy m.A
  B : p.B.HeldBy m.B
  c : p.c.HeldBy m.c
  E : p.E.HeldBy m.E
  L : p.L.HeldBy m.L
  d : p.d.HeldBy m.d
  x0 : m.x0 = p.x0

/-- C40: solving with a `ProblemDataRef` whose maps hold the values of a `ProblemData` is solving
with that `ProblemData`. -/
theorem C40_owning_mpc (s : FBstabMpc K) (p : MpcProblemData K) (r : MpcProblem K) (h : p.HeldBy r)
    (x : CallerVar K) :
    (s.solve r x).result = (s.solve p.toRef x).result ∧ (s.solve r x).x = (s.solve p.toRef x).x ∧
    (s.solve r x).log = (s.solve p.toRef x).log :=
  C40_data_mpc s p.toRef r ⟨h.Q.same, h.R.same, h.S.same, h.q.same, h.r.same, h.A.same, h.B.same,
    h.c.same, h.E.same, h.L.same, h.d.same, h.x0⟩ x

/-- A sequence of two 2x3 matrices: write one element, read the neighbours. -/
example : ∃ s s' : MatrixSequence ℤ, MatrixSequence.new 2 2 3 = .ok s ∧
    s.write 1 1 2 7 = .ok s' ∧ s'.read 1 1 2 = .ok 7 ∧ s'.read 0 1 2 = .ok 0 ∧
    s'.read 1 0 2 = .ok 0 ∧ ∃ m, s'.read 2 0 0 = .error (.outOfRange m) := by
  obtain ⟨s, h1, h2, h3, h4, -, h5⟩ :=
    (C38_new (K := ℤ) 2 2 3 (by decide)).2 (by norm_num) (by norm_num) (by norm_num)
  have e3 : s.nr = 2 := by omega
  have e4 : s.nc = 3 := by omega
  have e2 : s.N = 2 := by omega
  obtain ⟨s', w1, w2, w3, w4, w5⟩ := (C38_write s 1 1 2 (by omega) (by omega) 7).2 (by omega)
    (by omega)
  refine ⟨s, s', h1, w1, by simp [w5], ?_, ?_, ?_⟩
  · rw [w5]; simpa using h5 0 1 2 (by omega) (by omega) (by omega) (by omega)
  · rw [w5]; simpa using h5 1 0 2 (by omega) (by omega) (by omega) (by omega)
  · exact (C38_read s' 2 0 0 (by omega) (by omega)).1.2 (by omega)

end Fbstab
