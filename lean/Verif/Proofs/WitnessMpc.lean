import Verif.Proofs.Witness

/-!
# Concrete optimal control problems and `FBstabMpc` objects
-/

namespace Fbstab
open Matrix

/-- `n` matrices of shape `r` by `c`, one after the other, column major. -/
noncomputable def MapSequence.ofMats {n r c : Nat} (f : Fin n → Matrix (Fin r) (Fin c) ℝ) : MapSequence ℝ where
  data := some (Array.ofFn fun p : Fin (n * r * c) =>
    if h : p.1 / (r * c) < n ∧ p.1 % r < r ∧ p.1 % (r * c) / r < c then
      f ⟨_, h.1⟩ ⟨_, h.2.1⟩ ⟨_, h.2.2⟩ else 0)
  N := n
  nr := r
  nc := c
  block := by simp
  nonnull := by simp

theorem MapSequence.ofMats_toMat {n r c : Nat} (f : Fin n → Matrix (Fin r) (Fin c) ℝ) (k : Fin n) :
    ((MapSequence.ofMats f).toMat r c k.1).fn = f k := by
  ext i j
  have hr : 0 < r := i.pos
  have hc : 0 < c := j.pos
  have h1 : j.1 * r + i.1 < r * c := by
    have : (j.1 + 1) * r ≤ c * r := Nat.mul_le_mul_right _ j.2
    rw [Nat.mul_comm r c]; have := i.2; lia
  have h2 : k.1 * r * c + j.1 * r + i.1 < n * r * c := by
    have h3 : (k.1 + 1) * (r * c) ≤ n * (r * c) := Nat.mul_le_mul_right _ k.2
    rw [Nat.mul_assoc n, Nat.mul_assoc k.1]
    lia
  have hrc : 0 < r * c := Nat.mul_pos hr hc
  have e : k.1 * r * c + j.1 * r + i.1 = (j.1 * r + i.1) + r * c * k.1 := by ring
  have e1 : (k.1 * r * c + j.1 * r + i.1) / (r * c) = k.1 := by
    rw [e, Nat.add_mul_div_left _ _ hrc, Nat.div_eq_of_lt h1, zero_add]
  have e2 : (k.1 * r * c + j.1 * r + i.1) % r = i.1 := by
    rw [show k.1 * r * c + j.1 * r + i.1 = i.1 + r * (k.1 * c + j.1) by ring, Nat.add_mul_mod_self_left,
      Nat.mod_eq_of_lt i.2]
  have e3 : (k.1 * r * c + j.1 * r + i.1) % (r * c) / r = j.1 := by
    rw [e, Nat.add_mul_mod_self_left, Nat.mod_eq_of_lt h1,
      show j.1 * r + i.1 = i.1 + r * j.1 by ring, Nat.add_mul_div_left _ _ hr, Nat.div_eq_of_lt i.2, zero_add]
  simp only [MapSequence.toMat, MapSequence.ofMats, Mat.fn_apply, Mat.get_ofFn, Option.getD_some]
  rw [Array.getD_eq_getD_getElem?, Array.getElem?_eq_getElem (by simpa using h2)]
  simp only [Array.getElem_ofFn, e1, e2, e3, Option.getD_some]
  rw [dif_pos ⟨k.2, i.2, j.2⟩]

/-- `n` columns of length `r`. -/
noncomputable def MapSequence.ofCols {n r : Nat} (f : Fin n → Fin r → ℝ) : MapSequence ℝ :=
  .ofMats (c := 1) fun k i _ => f k i

theorem MapSequence.ofCols_toVec {n r : Nat} (f : Fin n → Fin r → ℝ) (k : Fin n) :
    ((MapSequence.ofCols f).toVec r k.1).fn = f k := by
  ext i
  have := congrFun (congrFun (MapSequence.ofMats_toMat (c := 1) (fun k i _ => f k i) k) i) 0
  simpa [MapSequence.toVec, MapSequence.toMat, MapSequence.ofCols, Vec.fn] using this

/-- The sequences that hold the numbers of `o`. -/
noncomputable def Ocp.toMpc {N nx nu nc : Nat} (o : Ocp N nx nu nc) : MpcProblem ℝ where
  Q := .ofMats o.Q
  R := .ofMats o.R
  S := .ofMats o.S
  q := .ofCols o.q
  r := .ofCols o.r
  A := .ofMats o.A
  B := .ofMats o.B
  c := .ofCols o.c
  E := .ofMats o.E
  L := .ofMats o.L
  d := .ofCols o.d
  x0 := ⟨Array.ofFn o.x0⟩

theorem Ocp.toMpc_toData {N nx nu nc : Nat} (o : Ocp N nx nu nc) :
    Ocp.ofMpc (o.toMpc.toData N nx nu nc) = o := by
  unfold Ocp.ofMpc MpcProblem.toData Ocp.toMpc
  cases o
  simp only [Vec.get_ofFn, MapSequence.ofMats_toMat, MapSequence.ofCols_toVec, ofFn_toVec]

/-- A guess holding the given numbers; `y` holds zeros. -/
noncomputable def fullGuessOf {nz nl nv : Nat} (z : Fin nz → ℝ) (l : Fin nl → ℝ) (v : Fin nv → ℝ) :
    CallerVar ℝ := ⟨false, ⟨Array.ofFn z⟩, ⟨Array.ofFn l⟩, ⟨Array.ofFn v⟩, ⟨Array.ofFn fun _ : Fin nv => 0⟩⟩

theorem Ocp.toMpc_fits {N nx nu nc : Nat} (o : Ocp N nx nu nc)
    (z : Fin ((N + 1) * (nx + nu)) → ℝ) (l : Fin ((N + 1) * nx) → ℝ) (v : Fin ((N + 1) * nc) → ℝ) :
    MpcFits N nx nu nc o.toMpc (fullGuessOf z l v) := by
  constructor <;> simp [Ocp.toMpc, MapSequence.ofMats, MapSequence.ofCols, fullGuessOf, DVec.size]

theorem Ocp.toMpc_columns {N nx nu nc : Nat} (o : Ocp N nx nu nc) : o.toMpc.Columns :=
  ⟨rfl, rfl, rfl, rfl⟩

theorem fullGuessOf_point {nz nl nv : Nat} (z : Fin nz → ℝ) (l : Fin nl → ℝ) (v : Fin nv → ℝ) :
    ((fullGuessOf z l v).z.toVec nz).fn = z ∧ ((fullGuessOf z l v).l.toVec nl).fn = l ∧
      ((fullGuessOf z l v).v.toVec nv).fn = v :=
  ⟨ofFn_toVec z, ofFn_toVec l, ofFn_toVec v⟩

/-- A new `FBstabMpc(N, nx, nu, nc)` after `UpdateOptions(o)` with options in range. -/
noncomputable def FBstabMpc.made (junk : MpcJunk ℝ) (N nx nu nc : Nat) (o : Params ℝ) : FBstabMpc ℝ :=
  ⟨N, nx, nu, nc, { (AlgMem.fresh (ls := riccatiSolver ℝ N nx nu nc)
    { junk.lin N nx nu nc with alpha := 0.95, data := none } (junk.feas _ _ _)) with opts := o }⟩

theorem FBstabMpc.new_ok {K : Type} [Scalar K] (junk : MpcJunk K) {N nx nu nc : Nat} (hN : 0 < N)
    (hx : 0 < nx) (hu : 0 < nu) (hc : 0 < nc) (h1 : (nx + nu) * (N + 1) < intLimit)
    (h2 : nc * (N + 1) < intLimit) :
    FBstabMpc.new junk N nx nu nc = .ok ⟨N, nx, nu, nc,
      AlgMem.fresh (ls := riccatiSolver K N nx nu nc)
        { junk.lin N nx nu nc with alpha := 0.95, data := none } (junk.feas _ _ _)⟩ := by
  have e1 : ¬((N : Int) < 1 ∨ (nx : Int) < 1 ∨ (nu : Int) < 1 ∨ (nc : Int) < 1) := by omega
  have e2 : ¬((N : Int) ≤ 0 ∨ (nx : Int) ≤ 0 ∨ (nu : Int) ≤ 0 ∨ (nc : Int) ≤ 0) := by omega
  have i1 : ((nx : Int) + nu) * (N + 1) = (((nx + nu) * (N + 1) : Nat) : Int) := by push_cast; ring
  have i2 : (nx : Int) * (N + 1) = ((nx * (N + 1) : Nat) : Int) := by push_cast; ring
  have i3 : (nc : Int) * (N + 1) = ((nc * (N + 1) : Nat) : Int) := by push_cast; ring
  have p1 : 0 < (nx + nu) * (N + 1) := by positivity
  have p2 : 0 < nx * (N + 1) := by positivity
  have p3 : 0 < nc * (N + 1) := by positivity
  have h3 : nx * (N + 1) ≤ (nx + nu) * (N + 1) := Nat.mul_le_mul_right _ (Nat.le_add_right _ _)
  have e3 : ¬((intLimit : Int) ≤ ((nx : Int) + nu) * (N + 1) ∨ (intLimit : Int) ≤ (nx : Int) * (N + 1) ∨
      (intLimit : Int) ≤ (nc : Int) * (N + 1)) := by
    rw [i1, i2, i3]; omega
  have e4 : ¬(((nx : Int) + nu) * (N + 1) ≤ 0 ∨ (nx : Int) * (N + 1) < 0 ∨ (nc : Int) * (N + 1) ≤ 0) := by
    rw [i1, i2, i3]; omega
  unfold FBstabMpc.new
  simp only [if_neg e1, componentCheck, if_neg e2, if_neg e3, if_neg e4]
  rfl

theorem FBstabMpc.made_reachable (junk : MpcJunk ℝ) {N nx nu nc : Nat} (o : Params ℝ) (hN : 0 < N)
    (hx : 0 < nx) (hu : 0 < nu) (hc : 0 < nc) (h1 : (nx + nu) * (N + 1) < intLimit)
    (h2 : nc * (N + 1) < intLimit) (ho : o.InRange) :
    (FBstabMpc.made junk N nx nu nc o).Reachable := by
  refine ⟨junk, N, nx, nu, nc, _, [.updateOptions o], FBstabMpc.new_ok junk hN hx hu hc h1 h2, ?_⟩
  simp only [FBstabMpc.after, List.foldl, MpcCall.apply, FBstabMpc.updateOptions,
    AlgMem.updateParameters, C02_inRange_unchanged o ho]
  rfl

theorem FBstabMpc.made_ocp (junk : MpcJunk ℝ) {N nx nu nc : Nat} (o : Params ℝ) (p : Ocp N nx nu nc) :
    (FBstabMpc.made junk N nx nu nc o).ocp p.toMpc = p := p.toMpc_toData

theorem FBstabMpc.made_qp (junk : MpcJunk ℝ) {N nx nu nc : Nat} (o : Params ℝ) (p : Ocp N nx nu nc) :
    (FBstabMpc.made junk N nx nu nc o).qp p.toMpc = p.toQP := by
  show (Ocp.ofMpc (p.toMpc.toData N nx nu nc)).toQP = _
  rw [p.toMpc_toData]

end Fbstab
