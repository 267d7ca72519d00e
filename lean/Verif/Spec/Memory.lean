import Verif.Spec.Api

/-!
# Where the numbers are in the caller's memory

Eigen's default storage: the columns of a matrix one after the other; a sequence of matrices is one such block after
the other.
-/

namespace Fbstab
variable {K : Type}

/-- The memory starting at position `start` holds the matrix `m`, column by column. -/
def HoldsMat {r c : Nat} (memory : Array K) (start : Nat) (m : Fin r → Fin c → K) : Prop :=
  ∀ i j, memory[start + j.1 * r + i.1]? = some (m i j)

/-- The memory starting at position `start` holds the vector `v`. -/
def HoldsVec {n : Nat} (memory : Array K) (start : Nat) (v : Fin n → K) : Prop :=
  ∀ i, memory[start + i.1]? = some (v i)

/-- The memory behind the pointer holds `n` matrices, one after the other. -/
def HoldsMats {n r c : Nat} (memory : Option (Array K)) (m : Fin n → Fin r → Fin c → K) : Prop :=
  ∀ k, ∃ a, memory = some a ∧ HoldsMat a (k.1 * (r * c)) (m k)

/-- The memory behind the pointer holds `n` vectors, one after the other. -/
def HoldsVecs {n r : Nat} (memory : Option (Array K)) (v : Fin n → Fin r → K) : Prop :=
  ∀ k, ∃ a, memory = some a ∧ HoldsVec a (k.1 * r) (v k)

end Fbstab
