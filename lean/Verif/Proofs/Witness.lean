import Verif.Proofs.RealCore
import Verif.Props.Options

/-!
# Concrete problems, objects and guesses

Run-time sized inputs that hold given numbers, and solver objects with given options, for examples
and counterexamples.
-/

namespace Fbstab
open Matrix

/-- The dense data that hold the numbers of `q`, as a user would write them into Eigen objects. -/
noncomputable def QP.toDense {nz nl nv : Nat} (q : QP nz nl nv) : DenseProblem ℝ where
  H := ⟨nz, nz, Array.ofFn fun k : Fin (nz * nz) => q.H k.modNat k.divNat, by simp⟩
  f := ⟨Array.ofFn q.f⟩
  G := ⟨nl, nz, Array.ofFn fun k : Fin (nl * nz) => q.G (k.cast (Nat.mul_comm ..)).modNat
    (k.cast (Nat.mul_comm ..)).divNat, by simp⟩
  h := ⟨Array.ofFn q.h⟩
  A := ⟨nv, nz, Array.ofFn fun k : Fin (nv * nz) => q.A (k.cast (Nat.mul_comm ..)).modNat
    (k.cast (Nat.mul_comm ..)).divNat, by simp⟩
  b := ⟨Array.ofFn q.b⟩

theorem ofFn_toVec {n : Nat} (f : Fin n → ℝ) : ((⟨Array.ofFn f⟩ : DVec ℝ).toVec n).fn = f := by
  ext i
  simp [DVec.toVec, Vec.fn]

theorem ofFn_toMat {r c : Nat} (f : Matrix (Fin r) (Fin c) ℝ)
    (hs : (Array.ofFn fun k : Fin (r * c) => f (k.cast (Nat.mul_comm ..)).modNat
      (k.cast (Nat.mul_comm ..)).divNat).size = r * c) :
    ((⟨r, c, Array.ofFn fun k : Fin (r * c) => f (k.cast (Nat.mul_comm ..)).modNat
      (k.cast (Nat.mul_comm ..)).divNat, hs⟩ : DMat ℝ).toMat r c).fn = f := by
  ext i j
  have hlt : j.1 * r + i.1 < r * c := by
    have : (j.1 + 1) * r ≤ c * r := Nat.mul_le_mul_right _ j.2
    rw [Nat.mul_comm r c]; have := i.2; lia
  simp only [DMat.toMat, Mat.fn_apply, Mat.get_ofFn]
  rw [Array.getD_eq_getD_getElem?, Array.getElem?_eq_getElem (by simpa using hlt)]
  simp only [Array.getElem_ofFn, Option.getD_some]
  congr 1
  · ext; simp [Fin.modNat, Nat.mod_eq_of_lt i.2]
  · ext
    have : 0 < r := i.pos
    simp [Fin.divNat, Nat.add_div this, Nat.div_eq_of_lt i.2, this,
      Nat.mod_eq_of_lt i.2]

theorem QP.toDense_toData {nz nl nv : Nat} (q : QP nz nl nv) :
    QP.ofDense (q.toDense.toData nz nl nv) = q := by
  unfold QP.ofDense DenseProblem.toData QP.toDense
  cases q
  simp only [QP.mk.injEq]
  exact ⟨ofFn_toMat _ _, ofFn_toVec _, ofFn_toMat _ _, ofFn_toVec _, ofFn_toMat _ _, ofFn_toVec _⟩

/-- A guess holding the given numbers, in owning vectors; `y` is left empty. -/
noncomputable def guessOf {nz nl nv : Nat} (z : Fin nz → ℝ) (l : Fin nl → ℝ) (v : Fin nv → ℝ) :
    CallerVar ℝ := ⟨false, ⟨Array.ofFn z⟩, ⟨Array.ofFn l⟩, ⟨Array.ofFn v⟩, ⟨#[]⟩⟩

theorem guessOf_writable {nz nl nv : Nat} (z : Fin nz → ℝ) (l : Fin nl → ℝ) (v : Fin nv → ℝ) (n : Nat) :
    (guessOf z l v).YWritable n := fun h => nomatch h

theorem QP.toDense_fits {nz nl nv : Nat} (q : QP nz nl nv) (z : Fin nz → ℝ) (l : Fin nl → ℝ)
    (v : Fin nv → ℝ) : DenseFits nz nl nv q.toDense (guessOf z l v) := by
  constructor <;> simp [QP.toDense, DVec.size, guessOf]

theorem guessOf_point {nz nl nv : Nat} (z : Fin nz → ℝ) (l : Fin nl → ℝ) (v : Fin nv → ℝ) :
    ((guessOf z l v).z.toVec nz).fn = z ∧ ((guessOf z l v).l.toVec nl).fn = l ∧
      ((guessOf z l v).v.toVec nv).fn = v :=
  ⟨ofFn_toVec z, ofFn_toVec l, ofFn_toVec v⟩

/-- Memory that happens to hold zeros. -/
def FeasWs.zeros {K : Type} [Scalar K] (nz nl nv : Nat) : FeasWs K nz nl nv :=
  ⟨Vec.const 0, Vec.const 0, Vec.const 0⟩
/-- Memory that happens to hold zeros. -/
def DenseJunk.zeros {K : Type} [Scalar K] : DenseJunk K where
  lin := fun _ _ _ => ⟨0, none, Mat.ofFn fun _ _ => 0, Mat.ofFn fun _ _ => 0,
    ⟨Vec.ofFn id, Mat.ofFn fun _ _ => 0, false⟩, Vec.const 0, Vec.const 0, Vec.const 0, Vec.const 0,
    Vec.const 0, Mat.ofFn fun _ _ => 0⟩
  feas := FeasWs.zeros
/-- Memory that happens to hold zeros. -/
def MpcJunk.zeros {K : Type} [Scalar K] : MpcJunk K where
  lin := fun _ _ _ _ => ⟨Vec.const (Mat.ofFn fun _ _ => 0), Vec.const (Mat.ofFn fun _ _ => 0),
    Vec.const (Mat.ofFn fun _ _ => 0), Vec.const (Mat.ofFn fun _ _ => 0),
    Vec.const (Mat.ofFn fun _ _ => 0), Vec.const (Mat.ofFn fun _ _ => 0),
    Vec.const (Mat.ofFn fun _ _ => 0), Vec.const (Mat.ofFn fun _ _ => 0),
    Vec.const (Mat.ofFn fun _ _ => 0), Vec.const (Vec.const 0), Vec.const (Vec.const 0),
    Vec.const 0, Vec.const 0, Vec.const 0, Mat.ofFn fun _ _ => 0, Mat.ofFn fun _ _ => 0,
    Mat.ofFn fun _ _ => 0, Vec.const 0, Vec.const 0, Vec.const 0, Vec.const 0, Vec.const 0,
    Vec.const 0, none, 0⟩
  feas := FeasWs.zeros

/-- A new `FBstabDense(nz, nl, nv)` after `UpdateOptions(o)` with options in range. -/
noncomputable def FBstabDense.made (junk : DenseJunk ℝ) (nz nl nv : Nat) (o : Params ℝ) : FBstabDense ℝ :=
  ⟨nz, nl, nv, { (AlgMem.fresh (ls := denseSolver ℝ nz nl nv)
    { junk.lin nz nl nv with alpha := 0.95, data := none } (junk.feas nz nl nv)) with opts := o }⟩

theorem FBstabDense.new_ok {K : Type} [Scalar K] (junk : DenseJunk K) {nz nl nv : Nat} (hz : 0 < nz)
    (hv : 0 < nv) (hi : nz + nl < intLimit) :
    FBstabDense.new junk nz nl nv = .ok ⟨nz, nl, nv,
      AlgMem.fresh (ls := denseSolver K nz nl nv)
        { junk.lin nz nl nv with alpha := 0.95, data := none } (junk.feas nz nl nv)⟩ := by
  have h1 : ¬((nz : Int) ≤ 0 ∨ (nv : Int) ≤ 0 ∨ (nl : Int) < 0) := by omega
  have h2 : ¬((nz : Int) ≤ 0 ∨ (nl : Int) < 0 ∨ (nv : Int) ≤ 0) := by omega
  have h3 : ¬((intLimit : Int) ≤ (nz : Int) + nl) := by omega
  unfold FBstabDense.new
  simp only [if_neg h1, componentCheck, if_neg h2, if_neg h3]
  rfl

theorem FBstabDense.made_reachable (junk : DenseJunk ℝ) {nz nl nv : Nat} (o : Params ℝ)
    (hz : 0 < nz) (hv : 0 < nv) (hi : nz + nl < intLimit) (ho : o.InRange) :
    (FBstabDense.made junk nz nl nv o).Reachable := by
  refine ⟨junk, nz, nl, nv, _, [.updateOptions o], FBstabDense.new_ok junk hz hv hi, ?_⟩
  simp only [FBstabDense.after, List.foldl, DenseCall.apply, FBstabDense.updateOptions,
    AlgMem.updateParameters, C02_inRange_unchanged o ho]
  rfl

theorem FBstabDense.made_qp (junk : DenseJunk ℝ) {nz nl nv : Nat} (o : Params ℝ) (q : QP nz nl nv) :
    (FBstabDense.made junk nz nl nv o).qp q.toDense = q := q.toDense_toData

end Fbstab
