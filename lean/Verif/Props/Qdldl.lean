import Verif.Spec.Qdldl
import Mathlib.Tactic.Linarith
import Mathlib.Tactic.IntervalCases
import Mathlib.Tactic.FinCases
import Mathlib.Tactic.NormNum
import Mathlib.LinearAlgebra.Matrix.ToLinearEquiv
import Mathlib.Logic.Equiv.Fin.Basic
import Mathlib.Algebra.BigOperators.Intervals

/-!
# C67: the wrapper of the sparse factorisation
-/

namespace Fbstab
open Matrix

theorem SparseMatrix.sym_symm (A : SparseMatrix ℝ) (n : Nat) : (A.sym n).IsSymm := by
  unfold Matrix.IsSymm
  ext i j
  show A.entry _ _ = A.entry _ _
  rw [min_comm, max_comm]

/-- C67: a quasi-definite matrix can be factored without pivoting. -/
theorem C67_quasiDefinite {n : Nat} (M : Matrix (Fin n) (Fin n) ℝ) (hs : M.IsSymm) (hq : SymQuasiDefinite M) :
    LeadingRegular M := by
  classical
  obtain ⟨S, hp, hm⟩ := hq
  intro k hk u hu hM
  let p : Fin n → ℝ := fun i => if S i then u i else 0
  let q : Fin n → ℝ := fun i => if S i then 0 else u i
  have hpq : u = p + q := by
    funext i
    simp only [p, q, Pi.add_apply]
    split <;> simp
  have hzero : (p - q) ⬝ᵥ M *ᵥ u = 0 := by
    unfold dotProduct
    refine Finset.sum_eq_zero fun i _ => ?_
    by_cases hi : i.1 < k
    · rw [hM i hi, mul_zero]
    · have : u i = 0 := hu i (not_lt.1 hi)
      simp [p, q, this]
  have hcomm : p ⬝ᵥ M *ᵥ q = q ⬝ᵥ M *ᵥ p := by
    rw [dotProduct_mulVec, ← mulVec_transpose, show Mᵀ = M from hs, dotProduct_comm]
  have e : p ⬝ᵥ M *ᵥ p - q ⬝ᵥ M *ᵥ q = 0 := by
    rw [hpq, mulVec_add, sub_dotProduct, dotProduct_add, dotProduct_add] at hzero
    linarith
  have h1 : p = 0 := by
    by_contra h
    have a := hp p h fun i hi => if_neg hi
    by_cases h' : q = 0
    · rw [h'] at e; simp only [zero_dotProduct] at e; linarith
    · have b := hm q h' fun i hi => if_pos hi
      linarith
  have h2 : q = 0 := by
    by_contra h
    have b := hm q h fun i hi => if_pos hi
    rw [h1] at e; simp only [zero_dotProduct] at e; linarith
  rw [hpq, h1, h2, add_zero]

section
variable {lib : Qdldl ℝ}
    {Analysed : (n : Nat) → (Ap Ai : Array Int) → (nnz : Nat) → (Lnz etree : Array Int) → Prop}
    {Factored : (n : Nat) → SparseMatrix ℝ → (Lp Li : Array Int) → (Lx Dinv : Array ℝ) → Prop}

open QdldlWrapper

theorem QdldlWrapper.resize_ok {α : Type} (k : Nat) (a : α) : resize (k : Int) a = .ok (Array.replicate k a) := by
  unfold resize
  rw [if_neg (by omega)]
  rfl

/-- The object the constructor returns. -/
noncomputable def QdldlWrapper.made (lib : Qdldl ℝ) (n : Nat) (Ap Ai : Array Int) : QdldlWrapper ℝ :=
  let r := lib.etree n Ap Ai (Array.replicate (3 * n) 0) (Array.replicate n 0) (Array.replicate n 0)
  ⟨r.ret, n, r.etree, r.Lnz, ⟨Array.replicate (n + 1) 0, Array.replicate r.ret.toNat 0, Array.replicate r.ret.toNat 0,
    Array.replicate n 0, Array.replicate n 0, Array.replicate n 0, r.work, Array.replicate n 0⟩⟩

theorem QdldlWrapper.new_eq (n : Nat) (Ap Ai : Array Int) : QdldlWrapper.new lib n Ap Ai =
    if (made lib n Ap Ai).nnz < 0 then .error .mk else .ok (made lib n Ap Ai) := by
  unfold QdldlWrapper.new
  have a : ∀ {α : Type} (x : α), resize (3 * (n : Int)) x = .ok (Array.replicate (3 * n) x) := fun x => by
    rw [← resize_ok]; rfl
  have b : ∀ {α : Type} (x : α), resize ((n : Int) + 1) x = .ok (Array.replicate (n + 1) x) := fun x => by
    rw [← resize_ok]; rfl
  simp only [a, b, resize_ok, bind, Except.bind, pure, Except.pure]
  unfold resize made
  by_cases h : (lib.etree n Ap Ai (Array.replicate (3 * n) 0) (Array.replicate n 0) (Array.replicate n 0)).ret < 0
  · simp only [if_pos h]
  · simp only [if_neg h]

/-- What holds of the object between calls. -/
structure QdldlWrapper.Ready (Analysed : (n : Nat) → (Ap Ai : Array Int) → (nnz : Nat) → (Lnz etree : Array Int) → Prop)
    (n : Nat) (Ap Ai : Array Int) (w : QdldlWrapper ℝ) : Prop where
  n_eq : w.n = n
  nnz : 0 ≤ w.nnz
  upper : UpperColumns n Ap Ai
  analysed : Analysed n Ap Ai w.nnz.toNat w.Lnz w.etree
  Lnz : w.Lnz.size = n
  etree : w.etree.size = n
  sized : w.f.Sized n w.nnz.toNat

theorem QdldlWrapper.ready_new (C : QdldlContract lib Analysed Factored) {n : Nat} {Ap Ai : Array Int}
    (hc : Compressed n Ap Ai) {w : QdldlWrapper ℝ} (hw : QdldlWrapper.new lib n Ap Ai = .ok w) :
    w.Ready Analysed n Ap Ai := by
  rw [new_eq] at hw
  split at hw
  · cases hw
  · rename_i hn
    cases hw
    have hn : 0 ≤ (lib.etree n Ap Ai (Array.replicate (3 * n) 0) (Array.replicate n 0) (Array.replicate n 0)).ret :=
      not_lt.1 hn
    obtain ⟨h1, h2, h3, h4, -⟩ := C.etree n Ap Ai (Array.replicate (3 * n) 0) (Array.replicate n 0)
      (Array.replicate n 0) hc (by simp; omega) (by simp) (by simp)
    exact ⟨rfl, hn, (h4 hn).1, (h4 hn).2, h2, h3,
      ⟨by simp [made], by simp [made], by simp [made], by simp [made], by simp [made], by simp [made],
        by simpa [made] using h1, by simp [made]⟩⟩

theorem QdldlWrapper.Ready.factor (C : QdldlContract lib Analysed Factored) {n : Nat} {Ap Ai : Array Int} (h1 : 1 ≤ n)
    (hc : Compressed n Ap Ai) {w : QdldlWrapper ℝ} (h : w.Ready Analysed n Ap Ai) {A : SparseMatrix ℝ}
    (hA : A.HasPattern n Ap Ai) : (w.factor lib A).Ready Analysed n Ap Ai ∧
    (LeadingRegular (A.sym n) → Factored n A (w.factor lib A).f.Lp (w.factor lib A).f.Li (w.factor lib A).f.Lx
      (w.factor lib A).f.Dinv) := by
  obtain ⟨rfl, rfl, hv⟩ := hA
  obtain ⟨s, f⟩ := C.factor n A w.nnz.toNat w.Lnz w.etree w.f h1 hc hv h.analysed h.sized
  have e : w.factor lib A = { w with f := (lib.factor n A.outer A.inner A.values w.Lnz w.etree w.f).2 } := by
    unfold QdldlWrapper.factor
    rw [h.n_eq]
  rw [e]
  exact ⟨⟨h.n_eq, h.nnz, h.upper, h.analysed, h.Lnz, h.etree, s⟩, f⟩

theorem QdldlWrapper.Ready.after (C : QdldlContract lib Analysed Factored) {n : Nat} {Ap Ai : Array Int} (h1 : 1 ≤ n)
    (hc : Compressed n Ap Ai) (hist : List (SparseMatrix ℝ)) : ∀ {w : QdldlWrapper ℝ}, w.Ready Analysed n Ap Ai →
    (∀ A ∈ hist, A.HasPattern n Ap Ai) → (w.after lib hist).Ready Analysed n Ap Ai := by
  induction hist with
  | nil => intro w h _; exact h
  | cons A t ih =>
    intro w h hA
    exact ih (h.factor C h1 hc (hA A (by simp))).1 fun B hB => hA B (by simp [hB])

/-- C67: the constructor succeeds for the pattern of an upper triangle with an entry in every column (unless the
factor is too large for `int`), and throws for every other pattern and for a negative size. -/
theorem C67_constructor (C : QdldlContract lib Analysed Factored) (Ap Ai : Array Int) :
    (∀ n : Nat, Compressed n Ap Ai → UpperColumns n Ap Ai → n * n < 2 ^ 31 →
      ∃ w, QdldlWrapper.new lib n Ap Ai = .ok w) ∧
    (∀ n : Nat, Compressed n Ap Ai → ¬UpperColumns n Ap Ai → ∃ e, QdldlWrapper.new lib n Ap Ai = .error e) ∧
    (∀ n : Int, n < 0 → ∃ e, QdldlWrapper.new lib n Ap Ai = .error e) := by
  refine ⟨fun n hc hu hn => ?_, fun n hc hu => ?_, fun n hn => ?_⟩
  · obtain ⟨-, -, -, -, h⟩ := C.etree n Ap Ai (Array.replicate (3 * n) 0) (Array.replicate n 0) (Array.replicate n 0) hc
      (by simp; omega) (by simp) (by simp)
    exact ⟨_, by rw [new_eq, if_neg (not_lt.2 (show (0 : Int) ≤ (made lib n Ap Ai).nnz from h hu hn))]⟩
  · cases hw : QdldlWrapper.new lib n Ap Ai with
    | error e => exact ⟨e, rfl⟩
    | ok w => exact absurd (ready_new C hc hw).upper hu
  · refine ⟨.mk, ?_⟩
    unfold QdldlWrapper.new
    have : resize (3 * n) (0 : Int) = .error .mk := by
      unfold resize
      rw [if_pos (by omega)]
    rw [this]
    rfl

/-- C67: after any number of `Factor` calls with matrices of the pattern given to the constructor, whether they can be
factored or not, the arrays passed to the library have the sizes it needs. -/
theorem C67_sizes (C : QdldlContract lib Analysed Factored) {n : Nat} {Ap Ai : Array Int} (h1 : 1 ≤ n)
    (hc : Compressed n Ap Ai) (w : QdldlWrapper ℝ) (hw : QdldlWrapper.new lib n Ap Ai = .ok w)
    (hist : List (SparseMatrix ℝ)) (hh : ∀ A ∈ hist, A.HasPattern n Ap Ai) :
    let w' := w.after lib hist
    w'.n = n ∧ w'.Lnz.size = n ∧ w'.etree.size = n ∧ Analysed n Ap Ai w'.nnz.toNat w'.Lnz w'.etree ∧
    w'.f.Sized n w'.nnz.toNat := by
  have r := (ready_new C hc hw).after C h1 hc hist hh
  exact ⟨r.n_eq, r.Lnz, r.etree, r.analysed, r.sized⟩

/-- C67: after `Factor(A)` with a quasi-definite `A`, or one all of whose leading principal submatrices are regular,
`Solve` replaces `x` by the solution of `A y = x`, whatever was factored before, including matrices that cannot be
factored. -/
theorem C67_solves (C : QdldlContract lib Analysed Factored) {n : Nat} {Ap Ai : Array Int} (h1 : 1 ≤ n)
    (hc : Compressed n Ap Ai) (w : QdldlWrapper ℝ) (hw : QdldlWrapper.new lib n Ap Ai = .ok w)
    (hist : List (SparseMatrix ℝ)) (hh : ∀ A ∈ hist, A.HasPattern n Ap Ai) (A : SparseMatrix ℝ)
    (hA : A.HasPattern n Ap Ai) (hq : SymQuasiDefinite (A.sym n) ∨ LeadingRegular (A.sym n)) (x : Array ℝ)
    (hx : x.size = n) :
    let y := ((w.after lib hist).factor lib A).solve lib x
    y.size = n ∧ A.sym n *ᵥ vectorOf n y = vectorOf n x := by
  have r := (ready_new C hc hw).after C h1 hc hist hh
  obtain ⟨r', hf⟩ := r.factor C h1 hc hA
  have := C.solve n A _ _ _ _ x (hf (hq.elim (C67_quasiDefinite _ (A.sym_symm n)) id)) hx
  intro y
  have e : y = lib.solve n ((w.after lib hist).factor lib A).f.Lp ((w.after lib hist).factor lib A).f.Li
      ((w.after lib hist).factor lib A).f.Lx ((w.after lib hist).factor lib A).f.Dinv x := by
    show QdldlWrapper.solve _ _ _ = _
    unfold QdldlWrapper.solve
    rw [r'.n_eq]
  rw [e]
  exact this
end

/-! ## The promises can be kept -/

namespace QdldlWitness

/-- A library that keeps the promises with dense matrices: it stores the inverse in `Lx`. -/
noncomputable def lib : Qdldl ℝ := by
  classical exact {
    etree := fun n Ap Ai work Lnz etree =>
      ⟨if UpperColumns n.toNat Ap Ai ∧ n * n < 2 ^ 31 then n * n else -1, work, Lnz, etree⟩
    factor := fun n Ap Ai Ax _ _ f =>
      (0, { f with Lx := Array.ofFn fun p : Fin (n.toNat * n.toNat) =>
        ((SparseMatrix.mk Ap Ai Ax).sym n.toNat)⁻¹ p.divNat p.modNat })
    solve := fun n _ _ Lx _ x => Array.ofFn fun i : Fin n.toNat =>
      ∑ j : Fin n.toNat, Lx.getD (finProdFinEquiv (i, j)).1 0 * x.getD j.1 0 }

theorem contract : QdldlContract lib (fun n Ap Ai nnz _ _ => UpperColumns n Ap Ai ∧ nnz = n * n)
    (fun n A _ _ Lx _ => IsUnit (A.sym n).det ∧ ∀ i j : Fin n, Lx.getD (finProdFinEquiv (i, j)).1 0 = (A.sym n)⁻¹ i j)
    where
  etree n Ap Ai work Lnz etree hc h1 h2 h3 := by
    classical
    have e : (lib.etree n Ap Ai work Lnz etree).ret =
        if UpperColumns n Ap Ai ∧ (n : Int) * n < 2 ^ 31 then (n : Int) * n else -1 := by
      unfold lib
      simp only [Int.toNat_natCast]
    refine ⟨rfl, h2, h3, fun h => ?_, fun hu hn => ?_⟩
    · rw [e] at h ⊢
      split at h
      · rename_i hh
        rw [if_pos hh]
        exact ⟨hh.1, hh.1, by rw [← Nat.cast_mul, Int.toNat_natCast]⟩
      · omega
    · rw [e, if_pos ⟨hu, by exact_mod_cast hn⟩]
      positivity
  factor n A nnz Lnz etree f h1 hc hv ha hf := by
    obtain ⟨-, rfl⟩ := ha
    have e : (lib.factor n A.outer A.inner A.values Lnz etree f).2 = { f with
        Lx := Array.ofFn fun p : Fin (n * n) => (A.sym n)⁻¹ p.divNat p.modNat } := rfl
    intro r
    rw [show r.2 = _ from e]
    refine ⟨⟨hf.Lp, hf.Li, by simp, hf.D, hf.Dinv, hf.bwork, hf.iwork, hf.fwork⟩, fun hr => ⟨?_, fun i j => ?_⟩⟩
    · rw [isUnit_iff_ne_zero]
      intro h0
      obtain ⟨u, hu, hM⟩ := exists_mulVec_eq_zero_iff.2 h0
      exact hu (hr n le_rfl u (fun i hi => absurd i.2 (not_lt.2 hi)) fun i _ => by rw [hM]; rfl)
    · have hlt := (finProdFinEquiv (i, j)).2
      simp only [Array.getD, Array.size_ofFn, hlt, dif_pos, Array.getInternal_eq_getElem, Array.getElem_ofFn]
      have := finProdFinEquiv.symm_apply_apply (i, j)
      rw [Prod.ext_iff] at this
      show (A.sym n)⁻¹ (finProdFinEquiv (i, j)).divNat (finProdFinEquiv (i, j)).modNat = _
      rw [show (finProdFinEquiv (i, j)).divNat = i from this.1, show (finProdFinEquiv (i, j)).modNat = j from this.2]
  solve n A Lp Li Lx Dinv x hF hx := by
    obtain ⟨hdet, hL⟩ := hF
    refine ⟨by simp [lib], ?_⟩
    have e : vectorOf n (lib.solve n Lp Li Lx Dinv x) = (A.sym n)⁻¹ *ᵥ vectorOf n x := by
      funext i
      have : vectorOf n (lib.solve n Lp Li Lx Dinv x) i =
          ∑ j : Fin n, Lx.getD (finProdFinEquiv (i, j)).1 0 * x.getD j.1 0 := by
        unfold vectorOf lib
        simp
      rw [this]
      exact Finset.sum_congr rfl fun j _ => by rw [hL]; rfl
    rw [e, mulVec_mulVec, mul_nonsing_inv _ hdet, one_mulVec]

/-- The matrix with rows `(2, 1)` and `(1, -3)`: three stored entries. -/
def matrix : SparseMatrix ℝ := ⟨#[0, 1, 3], #[0, 0, 1], #[2, 1, -3]⟩

theorem compressed : Compressed 2 matrix.outer matrix.inner where
  outer := rfl
  first := rfl
  mono := by decide
  inner := by decide
  rows j hj p h1 h2 := by
    interval_cases j
    · have : p = 0 := by simp [colStart, matrix] at h1 h2; omega
      subst this; decide
    · have : p = 1 ∨ p = 2 := by simp [colStart, matrix] at h1 h2; omega
      rcases this with rfl | rfl <;> decide
  once j hj p q h1 h2 h3 := by
    interval_cases j
    · simp [colStart, matrix] at h1 h3; omega
    · have : p = 1 ∧ q = 2 := by simp [colStart, matrix] at h1 h3; omega
      obtain ⟨rfl, rfl⟩ := this
      decide

theorem upper : UpperColumns 2 matrix.outer matrix.inner where
  some := by decide
  upper j hj p h1 h2 := by
    interval_cases j
    · have : p = 0 := by simp [colStart, matrix] at h1 h2; omega
      subst this; decide
    · have : p = 1 ∨ p = 2 := by simp [colStart, matrix] at h1 h2; omega
      rcases this with rfl | rfl <;> decide

theorem sym_eq : matrix.sym 2 = !![2, 1; 1, -3] := by
  ext i j
  fin_cases i <;> fin_cases j <;>
    simp [SparseMatrix.sym, SparseMatrix.entry, colStart, matrix, Finset.sum_Ico_succ_top]

theorem quasiDefinite : SymQuasiDefinite (matrix.sym 2) := by
  rw [sym_eq]
  refine ⟨fun i => i = 0, fun u hu h => ?_, fun u hu h => ?_⟩
  · have h1 : u 1 = 0 := h 1 (by decide)
    have h0 : u 0 ≠ 0 := fun h0 => hu (by ext i; fin_cases i <;> assumption)
    have := mul_self_pos.2 h0
    simp [dotProduct, mulVec, Fin.sum_univ_two, h1]
    linarith
  · have h0 : u 0 = 0 := h 0 rfl
    have h1 : u 1 ≠ 0 := fun h1 => hu (by ext i; fin_cases i <;> assumption)
    have := mul_self_pos.2 h1
    simp [dotProduct, mulVec, Fin.sum_univ_two, h0]
    linarith

/-- The hypotheses of C67 are met. -/
example : ∃ w, QdldlWrapper.new lib 2 matrix.outer matrix.inner = .ok w ∧
    matrix.sym 2 *ᵥ vectorOf 2 (((w.after lib [matrix]).factor lib matrix).solve lib #[3, -2]) =
      vectorOf 2 #[3, -2] := by
  obtain ⟨w, hw⟩ := (C67_constructor contract matrix.outer matrix.inner).1 2 compressed upper (by norm_num)
  have hp : matrix.HasPattern 2 matrix.outer matrix.inner := ⟨rfl, rfl, by decide⟩
  exact ⟨w, hw, (C67_solves contract (by norm_num) compressed w hw [matrix] (by simpa using hp) matrix hp
    (.inl quasiDefinite) #[3, -2] rfl).2⟩

end QdldlWitness
end Fbstab
