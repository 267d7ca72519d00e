import Verif.Model.Data
import Verif.Proofs.Loops

/-!
# Blocks of flattened vectors
-/

namespace Fbstab
variable {K : Type} {k m n nx nu : Nat}

theorem forFin_set_of_ne {idx : Fin m → Fin n} (v : Fin m → K) (w : Vec K n) (a : Fin n)
    (h : ∀ j, idx j ≠ a) : (forFin m (fun j w => w.set (idx j) (v j)) w) a = w a := by
  refine forFin_induct (P := fun _ (s : Vec K n) => s a = w a) rfl ?_
  intro i s hs
  rw [Vec.get_set, if_neg (fun e => h i e.symm), hs]

theorem forFin_set_of_eq {idx : Fin m → Fin n} (hi : ∀ a b, idx a = idx b → a = b) (v : Fin m → K)
    (w : Vec K n) (j : Fin m) : (forFin m (fun j w => w.set (idx j) (v j)) w) (idx j) = v j := by
  have := forFin_induct (n := m) (P := fun t (s : Vec K n) => j.1 < t → s (idx j) = v j)
    (f := fun j w => w.set (idx j) (v j)) (s := w) (fun h => absurd h (Nat.not_lt_zero _)) ?_
  · exact this j.2
  · intro i s hs hj
    rw [Vec.get_set]
    split
    · rename_i h
      rw [hi _ _ h]
    · rename_i h
      apply hs
      have : j.1 ≠ i.1 := fun e => h (by rw [Fin.ext e])
      omega

theorem flatIdx_inj {i i' : Fin k} {j j' : Fin m} (h : flatIdx i j = flatIdx i' j') :
    i = i' ∧ j = j' := by
  have h := congrArg Fin.val h
  simp only [flatIdx] at h
  have hj := j.2
  have hj' := j'.2
  have hm : 0 < m := by omega
  have h1 : i.1 = i'.1 := by
    have a : (i.1 * m + j.1) / m = i.1 := by
      rw [Nat.add_comm, Nat.add_mul_div_right _ _ hm, Nat.div_eq_of_lt hj, Nat.zero_add]
    have b : (i'.1 * m + j'.1) / m = i'.1 := by
      rw [Nat.add_comm, Nat.add_mul_div_right _ _ hm, Nat.div_eq_of_lt hj', Nat.zero_add]
    rw [← a, h, b]
  refine ⟨Fin.ext h1, Fin.ext ?_⟩
  rw [h1] at h
  omega

theorem flatIdx_surj (a : Fin (k * m)) : ∃ (i : Fin k) (j : Fin m), flatIdx i j = a := by
  have hm : 0 < m := by
    rcases Nat.eq_zero_or_pos m with h | h
    · subst h; exact absurd a.2 (by simp)
    · exact h
  refine ⟨⟨a.1 / m, ?_⟩, ⟨a.1 % m, Nat.mod_lt _ hm⟩, ?_⟩
  · have := a.2
    rw [Nat.div_lt_iff_lt_mul hm]; exact this
  · apply Fin.ext
    simp only [flatIdx]
    rw [Nat.mul_comm]
    exact Nat.div_add_mod _ _

theorem xIdx_inj {i i' : Fin k} {j j' : Fin nx}
    (h : (xIdx i j : Fin (k * (nx + nu))) = xIdx i' j') : i = i' ∧ j = j' := by
  obtain ⟨h1, h2⟩ := flatIdx_inj h
  have := congrArg Fin.val h2
  simp only [Fin.val_castAdd] at this
  exact ⟨h1, Fin.ext this⟩

theorem uIdx_inj {i i' : Fin k} {j j' : Fin nu}
    (h : (uIdx i j : Fin (k * (nx + nu))) = uIdx i' j') : i = i' ∧ j = j' := by
  obtain ⟨h1, h2⟩ := flatIdx_inj h
  have := congrArg Fin.val h2
  simp only [Fin.val_natAdd] at this
  exact ⟨h1, Fin.ext (by omega)⟩

theorem xIdx_ne_uIdx {i i' : Fin k} {j : Fin nx} {j' : Fin nu} :
    (xIdx i j : Fin (k * (nx + nu))) ≠ uIdx i' j' := by
  intro h
  obtain ⟨h1, h2⟩ := flatIdx_inj h
  have := congrArg Fin.val h2
  simp only [Fin.val_natAdd, Fin.val_castAdd] at this
  omega

theorem xuIdx_surj (a : Fin (k * (nx + nu))) :
    (∃ (i : Fin k) (j : Fin nx), xIdx i j = a) ∨ (∃ (i : Fin k) (j : Fin nu), uIdx i j = a) := by
  obtain ⟨i, j, h⟩ := flatIdx_surj a
  revert h
  refine Fin.addCases (fun j => ?_) (fun j => ?_) j <;> intro h
  · exact .inl ⟨i, j, h⟩
  · exact .inr ⟨i, j, h⟩

variable [Scalar K]

omit [Scalar K] in
@[simp] theorem colBlock_get (w : Vec K (k * m)) (i : Fin k) (j : Fin m) :
    colBlock w i j = w (flatIdx i j) := by simp [colBlock]
omit [Scalar K] in
@[simp] theorem xBlock_get (w : Vec K (k * (nx + nu))) (i : Fin k) (j : Fin nx) :
    xBlock w i j = w (xIdx i j) := by simp [xBlock]
omit [Scalar K] in
@[simp] theorem uBlock_get (w : Vec K (k * (nx + nu))) (i : Fin k) (j : Fin nu) :
    uBlock w i j = w (uIdx i j) := by simp [uBlock]

omit [Scalar K] in
theorem vec_ext_col {w w' : Vec K (k * m)} (h : ∀ i, colBlock w i = colBlock w' i) : w = w' := by
  ext a
  obtain ⟨i, j, rfl⟩ := flatIdx_surj a
  rw [← colBlock_get, h, colBlock_get]

omit [Scalar K] in
theorem vec_ext_xu {w w' : Vec K (k * (nx + nu))} (hx : ∀ i, xBlock w i = xBlock w' i)
    (hu : ∀ i, uBlock w i = uBlock w' i) : w = w' := by
  ext a
  rcases xuIdx_surj a with ⟨i, j, rfl⟩ | ⟨i, j, rfl⟩
  · rw [← xBlock_get, hx, xBlock_get]
  · rw [← uBlock_get, hu, uBlock_get]

omit [Scalar K] in
theorem colBlock_setCol (w : Vec K (k * m)) (i i' : Fin k) (v : Vec K m) :
    colBlock (setCol w i v) i' = if i' = i then v else colBlock w i' := by
  ext j
  rw [colBlock_get]
  split
  · rename_i h; subst h
    exact forFin_set_of_eq (fun a b h => (flatIdx_inj h).2) (fun j => v j) w j
  · rename_i h
    rw [colBlock_get]
    exact forFin_set_of_ne (fun j => v j) w _ fun j' e => h (flatIdx_inj e).1.symm

omit [Scalar K] in
theorem xBlock_setX (w : Vec K (k * (nx + nu))) (i i' : Fin k) (v : Vec K nx) :
    xBlock (setX w i v) i' = if i' = i then v else xBlock w i' := by
  ext j
  rw [xBlock_get]
  split
  · rename_i h; subst h
    exact forFin_set_of_eq (fun a b h => (xIdx_inj h).2) (fun j => v j) w j
  · rename_i h
    rw [xBlock_get]
    exact forFin_set_of_ne (fun j => v j) w _ fun j' e => h (xIdx_inj e).1.symm

omit [Scalar K] in
theorem uBlock_setU (w : Vec K (k * (nx + nu))) (i i' : Fin k) (v : Vec K nu) :
    uBlock (setU w i v) i' = if i' = i then v else uBlock w i' := by
  ext j
  rw [uBlock_get]
  split
  · rename_i h; subst h
    exact forFin_set_of_eq (fun a b h => (uIdx_inj h).2) (fun j => v j) w j
  · rename_i h
    rw [uBlock_get]
    exact forFin_set_of_ne (fun j => v j) w _ fun j' e => h (uIdx_inj e).1.symm

omit [Scalar K] in
@[simp] theorem uBlock_setX (w : Vec K (k * (nx + nu))) (i i' : Fin k) (v : Vec K nx) :
    uBlock (setX w i v) i' = uBlock w i' := by
  ext j
  rw [uBlock_get, uBlock_get]
  exact forFin_set_of_ne (fun j => v j) w _ fun j' e => xIdx_ne_uIdx e

omit [Scalar K] in
@[simp] theorem xBlock_setU (w : Vec K (k * (nx + nu))) (i i' : Fin k) (v : Vec K nu) :
    xBlock (setU w i v) i' = xBlock w i' := by
  ext j
  rw [xBlock_get, xBlock_get]
  exact forFin_set_of_ne (fun j => v j) w _ fun j' e => xIdx_ne_uIdx e.symm

omit [Scalar K] in
@[simp] theorem xBlock_setX_same (w : Vec K (k * (nx + nu))) (i : Fin k) (v : Vec K nx) :
    xBlock (setX w i v) i = v := by rw [xBlock_setX, if_pos rfl]
omit [Scalar K] in
@[simp] theorem uBlock_setU_same (w : Vec K (k * (nx + nu))) (i : Fin k) (v : Vec K nu) :
    uBlock (setU w i v) i = v := by rw [uBlock_setU, if_pos rfl]
omit [Scalar K] in
@[simp] theorem colBlock_setCol_same (w : Vec K (k * m)) (i : Fin k) (v : Vec K m) :
    colBlock (setCol w i v) i = v := by rw [colBlock_setCol, if_pos rfl]

end Fbstab
