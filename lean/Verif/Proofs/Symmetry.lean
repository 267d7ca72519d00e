import Verif.Spec.Symmetry
import Mathlib.Algebra.BigOperators.Group.Finset.Basic
import Mathlib.Tactic.LinearCombination

/-!
# The method does not depend on how the problem is written down
-/

namespace Fbstab
open Matrix

namespace Signed
variable {n m : Nat} (s : Signed n) (t : Signed m)

theorem sq (i : Fin n) : s.sign i * s.sign i = 1 := by rcases s.unit i with h | h <;> rw [h] <;> norm_num

theorem ofPerm_vec (p : Equiv.Perm (Fin n)) (x : Fin n → ℝ) : (ofPerm p).vec x = x ∘ p := by
  funext i; simp [vec, ofPerm]

theorem vec_add (x y : Fin n → ℝ) : s.vec (x + y) = s.vec x + s.vec y := by
  funext i; simp [vec, mul_add]

theorem vec_sub (x y : Fin n → ℝ) : s.vec (x - y) = s.vec x - s.vec y := by
  funext i; simp [vec, mul_sub]

theorem vec_neg (x : Fin n → ℝ) : s.vec (-x) = -s.vec x := by
  funext i; simp [vec]

theorem vec_smul (a : ℝ) (x : Fin n → ℝ) : s.vec (a • x) = a • s.vec x := by
  funext i; simp [vec]; ring

theorem vec_inj {x y : Fin n → ℝ} : s.vec x = s.vec y ↔ x = y := by
  refine ⟨fun h => ?_, fun h => h ▸ rfl⟩
  funext i
  have h1 := congrFun h (s.order.symm i)
  simp only [vec, Equiv.apply_symm_apply] at h1
  have h2 := s.sq (s.order.symm i)
  calc x i = s.sign (s.order.symm i) * s.sign (s.order.symm i) * x i := by rw [h2, one_mul]
    _ = s.sign (s.order.symm i) * s.sign (s.order.symm i) * y i := by rw [mul_assoc, h1, mul_assoc]
    _ = y i := by rw [h2, one_mul]

theorem dot (x y : Fin n → ℝ) : s.vec x ⬝ᵥ s.vec y = x ⬝ᵥ y := by
  rw [dotProduct, dotProduct, ← Equiv.sum_comp s.order fun i => x i * y i]
  refine Finset.sum_congr rfl fun i _ => ?_
  have := s.sq i
  simp only [vec]
  linear_combination (x (s.order i) * y (s.order i)) * this

theorem mulVec (M : Matrix (Fin n) (Fin m) ℝ) (x : Fin m → ℝ) : s.mat t M *ᵥ t.vec x = s.vec (M *ᵥ x) := by
  funext i
  simp only [Matrix.mulVec, dotProduct, vec, mat, of_apply]
  rw [Finset.mul_sum, ← Equiv.sum_comp t.order fun j => s.sign i * (M (s.order i) j * x j)]
  refine Finset.sum_congr rfl fun j _ => ?_
  have := t.sq j
  linear_combination (s.sign i * M (s.order i) (t.order j) * x (t.order j)) * this

theorem transpose (M : Matrix (Fin n) (Fin m) ℝ) : (s.mat t M)ᵀ = t.mat s Mᵀ := by
  ext i j
  simp only [transpose_apply, mat, of_apply]
  ring

theorem mulVecT (M : Matrix (Fin n) (Fin m) ℝ) (x : Fin n → ℝ) :
    (s.mat t M)ᵀ *ᵥ s.vec x = t.vec (Mᵀ *ᵥ x) := by rw [transpose, mulVec]

theorem euclid (x : Fin n → ℝ) : Fbstab.euclid (s.vec x) = Fbstab.euclid x := by
  rw [Fbstab.euclid, Fbstab.euclid, dot]

theorem norm (x : Fin n → ℝ) : ‖s.vec x‖ = ‖x‖ := by
  have key : ∀ i, ‖s.vec x i‖ = ‖x (s.order i)‖ := fun i => by
    rcases s.unit i with h | h <;> simp [vec, h]
  apply le_antisymm
  · refine (pi_norm_le_iff_of_nonneg (norm_nonneg _)).2 fun i => ?_
    rw [key]; exact norm_le_pi_norm x _
  · refine (pi_norm_le_iff_of_nonneg (norm_nonneg _)).2 fun i => ?_
    have := key (s.order.symm i)
    rw [Equiv.apply_symm_apply] at this
    rw [← this]; exact norm_le_pi_norm (s.vec x) _

end Signed

namespace Relabel
variable {nz nl nv : Nat} (g : Relabel nz nl nv) (q : QP nz nl nv)

theorem mulA (x : Fin nz → ℝ) : (g.qp q).A *ᵥ g.z.vec x = (q.A *ᵥ x) ∘ g.v := by
  rw [← Signed.ofPerm_vec]; exact Signed.mulVec ..

theorem mulG (x : Fin nz → ℝ) : (g.qp q).G *ᵥ g.z.vec x = g.l.vec (q.G *ᵥ x) := Signed.mulVec ..

theorem mulH (x : Fin nz → ℝ) : (g.qp q).H *ᵥ g.z.vec x = g.z.vec (q.H *ᵥ x) := Signed.mulVec ..

theorem mulGT (x : Fin nl → ℝ) : (g.qp q).Gᵀ *ᵥ g.l.vec x = g.z.vec (q.Gᵀ *ᵥ x) := Signed.mulVecT ..

theorem mulAT (x : Fin nv → ℝ) : (g.qp q).Aᵀ *ᵥ (x ∘ g.v) = g.z.vec (q.Aᵀ *ᵥ x) := by
  rw [← Signed.ofPerm_vec]; exact Signed.mulVecT ..

theorem dotv (x y : Fin nv → ℝ) : (x ∘ g.v) ⬝ᵥ (y ∘ g.v) = x ⬝ᵥ y := by
  rw [← Signed.ofPerm_vec, ← Signed.ofPerm_vec]; exact Signed.dot ..

theorem euclidv (x : Fin nv → ℝ) : euclid (x ∘ g.v) = euclid x := by
  rw [← Signed.ofPerm_vec]; exact Signed.euclid ..

theorem normv (x : Fin nv → ℝ) : ‖x ∘ g.v‖ = ‖x‖ := by
  rw [← Signed.ofPerm_vec]; exact Signed.norm ..

theorem lagrangeGrad (z : Fin nz → ℝ) (l : Fin nl → ℝ) (v : Fin nv → ℝ) :
    (g.qp q).lagrangeGrad (g.z.vec z) (g.l.vec l) (v ∘ g.v) = g.z.vec (q.lagrangeGrad z l v) := by
  rw [QP.lagrangeGrad, mulH, mulGT, mulAT, QP.lagrangeGrad, Signed.vec_add, Signed.vec_add, Signed.vec_add]
  rfl

theorem convex (hc : q.Convex) : (g.qp q).Convex := by
  refine ⟨?_, fun z => ?_⟩
  · show ((g.qp q).H)ᵀ = (g.qp q).H
    show (g.z.mat g.z q.H)ᵀ = g.z.mat g.z q.H
    rw [Signed.transpose, hc.symm.eq]
  · obtain ⟨x, rfl⟩ : ∃ x, z = g.z.vec x :=
      ⟨fun i => g.z.sign (g.z.order.symm i) * z (g.z.order.symm i), by
        funext i
        have := g.z.sq i
        simp only [Signed.vec, Equiv.symm_apply_apply]
        rw [← mul_assoc, this, one_mul]⟩
    rw [mulH, Signed.dot]
    exact hc.nonneg x

/-! ### Points -/

theorem point_along (x d : PD nz nl nv) (t : ℝ) : g.point (x.along t d) = (g.point x).along t (g.point d) := by
  simp only [PD.along, point, Signed.vec_add, Signed.vec_smul]
  rfl

theorem point_diff (x d : PD nz nl nv) : g.point (x.diff d) = (g.point x).diff (g.point d) := by
  simp only [PD.diff, point, Signed.vec_sub]
  rfl

theorem point_clip (x : PD nz nl nv) : g.point x.clip = (g.point x).clip := rfl

theorem point_length (x : PD nz nl nv) : (g.point x).length = x.length := by
  simp only [PD.length, point, Signed.dot, dotv]

end Relabel

namespace Method
variable {nz nl nv : Nat} (g : Relabel nz nl nv) {q : QP nz nl nv} {o : Params ℝ}

theorem residual_relabel (x : PD nz nl nv) : residual (g.qp q) o (g.point x) = residual q o x := by
  simp only [residual, Relabel.point]
  rw [Relabel.lagrangeGrad, Relabel.mulG, Relabel.mulA, Signed.euclid]
  refine Parts.ext rfl ?_ ?_
  · show euclid (g.l.vec q.h - _) = _
    rw [← Signed.vec_sub, Signed.euclid]
  · exact Relabel.euclidv g fun i => o.alpha * min ((q.b - q.A *ᵥ x.z) i) (x.v i) +
      (1 - o.alpha) * max 0 ((q.b - q.A *ᵥ x.z) i) * max 0 (x.v i)

theorem pairs_relabel (c x : PD nz nl nv) (i : Fin nv) :
    pairs (g.qp q) o (g.point c) (g.point x) i = pairs q o c x (g.v i) := by
  simp only [pairs, Relabel.point]
  rw [Relabel.mulA]
  rfl

theorem subResidual_relabel (c x : PD nz nl nv) :
    subResidual (g.qp q) o (g.point c) (g.point x) = subResidual q o c x := by
  simp only [subResidual, pairs_relabel]
  refine Parts.ext ?_ ?_ ?_
  · simp only [Relabel.point]
    rw [Relabel.lagrangeGrad, ← Signed.vec_sub, ← Signed.vec_smul, ← Signed.vec_add, Signed.euclid]
  · simp only [Relabel.point]
    rw [Relabel.mulG]
    show euclid (g.l.vec q.h - _ + _) = _
    rw [← Signed.vec_sub, ← Signed.vec_sub, ← Signed.vec_smul, ← Signed.vec_add, Signed.euclid]
  · exact Relabel.euclidv g fun i => phi o.alpha (pairs q o c x i) (x.v i)

theorem merit_relabel (c x : PD nz nl nv) :
    merit (g.qp q) o (g.point c) (g.point x) = merit q o c x := by
  rw [merit, subResidual_relabel, merit]

theorem isDirection_relabel {c x d : PD nz nl nv} (h : IsDirection q o c x d) :
    IsDirection (g.qp q) o (g.point c) (g.point x) (g.point d) := by
  obtain ⟨h1, h2, h3⟩ := h
  refine ⟨?_, ?_, fun i => ?_⟩
  · simp only [Relabel.point]
    rw [Relabel.mulH, Relabel.mulGT, Relabel.mulAT, Relabel.lagrangeGrad, ← Signed.vec_sub, ← Signed.vec_smul,
      ← Signed.vec_smul, ← Signed.vec_add, ← Signed.vec_add, ← Signed.vec_add, ← Signed.vec_add,
      ← Signed.vec_neg, h1]
  · simp only [Relabel.point]
    rw [Relabel.mulG, Relabel.mulG]
    show _ = -(g.l.vec q.h - _ + _)
    rw [← Signed.vec_neg, ← Signed.vec_sub, ← Signed.vec_sub, ← Signed.vec_smul, ← Signed.vec_smul,
      ← Signed.vec_add, ← Signed.vec_add, ← Signed.vec_neg, h2]
  · simp only [pairs_relabel]
    show _ * (-((g.qp q).A *ᵥ g.z.vec d.z) i + _) + _ = _
    rw [Relabel.mulA]
    exact h3 (g.v i)

theorem passes_relabel (c x d : PD nz nl nv) (ms : List ℝ) (t : ℝ) :
    Passes (g.qp q) o (g.point c) (g.point x) (g.point d) ms t ↔ Passes q o c x d ms t := by
  rw [Passes, ← Relabel.point_along, merit_relabel, merit_relabel, Passes]

theorem reductions_relabel {c x d : PD nz nl nv} {ms : List ℝ} {j : Nat} (h : Reductions q o c x d ms j) :
    Reductions (g.qp q) o (g.point c) (g.point x) (g.point d) ms j :=
  ⟨h.le, fun i hi => by rw [passes_relabel]; exact h.failed i hi,
    fun hj => by rw [passes_relabel]; exact h.passed hj⟩

theorem acceptable_relabel (c : PD nz nl nv) (tol : ℝ) (x : PD nz nl nv) :
    Acceptable (g.qp q) o (g.point c) tol (g.point x) ↔ Acceptable q o c tol x := by
  rw [Acceptable, subResidual_relabel, residual_relabel, residual_relabel, Acceptable]

theorem line_relabel (c : PD nz nl nv) (i : Nat) (t : ℝ) (x : PD nz nl nv) :
    line (g.qp q) o (g.point c) i t (g.point x) = line q o c i t x := by
  rw [line, subResidual_relabel, line]

/-- What a subproblem yields, in the new order. -/
def Found.relabel (f : Found nz nl nv) : Found nz nl nv := { f with x := g.point f.x }

theorem inner_relabel {c : PD nz nl nv} {tol : ℝ} {i t n ms x f} (h : Inner q o c tol i t n ms x f) :
    Inner (g.qp q) o (g.point c) tol i t n ms (g.point x) (f.relabel g) := by
  induction h with
  | accept hi ha =>
    have := Inner.accept (q := g.qp q) (ms := by assumption) (t := by assumption) (n := by assumption) hi
      ((acceptable_relabel g _ _ _).2 ha)
    rw [residual_relabel, subResidual_relabel, line_relabel] at this
    exact this
  | @newtonLimit i t n ms x hi ha hn =>
    have := Inner.newtonLimit (q := g.qp q) (ms := ms) (t := t) hi
      (mt (acceptable_relabel g _ _ _).1 ha) hn
    rw [residual_relabel, subResidual_relabel, line_relabel] at this
    exact this
  | @innerLimit i t n ms x d j hi ha hn hd hj =>
    have := Inner.innerLimit (q := g.qp q) (ms := ms) (t := t) hi
      (mt (acceptable_relabel g _ _ _).1 ha) hn (isDirection_relabel g hd)
      (by rw [merit_relabel]; exact reductions_relabel g hj)
    rw [residual_relabel, line_relabel, ← Relabel.point_along, ← Relabel.point_along,
      subResidual_relabel] at this
    exact this
  | @step i t n ms x d j f hi ha hn hd hj hr ih =>
    have := Inner.step (q := g.qp q) (ms := ms) (t := t) (f := f.relabel g) hi
      (mt (acceptable_relabel g _ _ _).1 ha) hn (isDirection_relabel g hd)
      (by rw [merit_relabel]; exact reductions_relabel g hj)
      (by rw [merit_relabel, ← Relabel.point_along]; exact ih)
    rw [line_relabel] at this
    exact this

/-- An iterate in the new order. -/
def Iterate.relabel (s : Iterate nz nl nv) : Iterate nz nl nv := { s with x := g.point s.x }

theorem tolerance_relabel : tolerance (g.qp q) o = tolerance q o := by
  simp only [tolerance]
  show _ + _ * (1 + √(g.z.vec q.f ⬝ᵥ g.z.vec q.f + g.l.vec q.h ⬝ᵥ g.l.vec q.h + (q.b ∘ g.v) ⬝ᵥ (q.b ∘ g.v))) = _
  rw [Signed.dot, Signed.dot, Relabel.dotv]

theorem stops_relabel (s : Iterate nz nl nv) : Stops (g.qp q) o (s.relabel g) ↔ Stops q o s := by
  rw [Stops, tolerance_relabel, Stops]
  show (residual (g.qp q) o (g.point s.x)).norm ≤ _ ∨ _ ↔ _
  rw [residual_relabel]
  rfl

theorem iterLine_relabel (s : Iterate nz nl nv) : iterLine (g.qp q) o (s.relabel g) = iterLine q o s := by
  simp only [iterLine, Iterate.relabel, residual_relabel]

theorem opening_relabel (s : Iterate nz nl nv) : opening (g.qp q) o (s.relabel g) = opening q o s := by
  rw [opening, iterLine_relabel]
  simp only [Iterate.relabel, residual_relabel, opening]

theorem nextTol_relabel (s : Iterate nz nl nv) : nextTol (g.qp q) o (s.relabel g) = nextTol q o s := by
  simp only [nextTol, Iterate.relabel, residual_relabel]

theorem solved_relabel {s : Iterate nz nl nv} {f} (h : Solved q o s f) :
    Solved (g.qp q) o (s.relabel g) (f.relabel g) :=
  ⟨mt (stops_relabel g s).1 h.goes, by
    show _ ≤ (residual (g.qp q) o (g.point s.x)).norm
    rw [residual_relabel]; exact h.bounds, by
    rw [nextTol_relabel]; exact inner_relabel g h.inner⟩

theorem primal_relabel (tol : ℝ) (d : PD nz nl nv) :
    (g.qp q).PrimalCertificate tol (g.point d).l (g.point d).v ↔ q.PrimalCertificate tol d.l d.v := by
  have e1 : ‖(g.qp q).Aᵀ *ᵥ (g.point d).v + (g.qp q).Gᵀ *ᵥ (g.point d).l‖ = ‖q.Aᵀ *ᵥ d.v + q.Gᵀ *ᵥ d.l‖ := by
    simp only [Relabel.point]
    rw [Relabel.mulAT, Relabel.mulGT, ← Signed.vec_add, Signed.norm]
  have e2 : max ‖(g.point d).v‖ ‖(g.point d).l‖ = max ‖d.v‖ ‖d.l‖ := by
    simp only [Relabel.point]
    rw [Relabel.normv, Signed.norm]
  have e3 : (g.qp q).b ⬝ᵥ (g.point d).v + (g.qp q).h ⬝ᵥ (g.point d).l = q.b ⬝ᵥ d.v + q.h ⬝ᵥ d.l := by
    show (q.b ∘ g.v) ⬝ᵥ (d.v ∘ g.v) + g.l.vec q.h ⬝ᵥ g.l.vec d.l = _
    rw [Relabel.dotv, Signed.dot]
  exact ⟨fun h => ⟨by have := h.small; rwa [e1, e2] at this, by have := h.neg; rwa [e3] at this⟩,
    fun h => ⟨by rw [e1, e2]; exact h.small, by rw [e3]; exact h.neg⟩⟩

theorem dual_relabel (tol : ℝ) (d : PD nz nl nv) :
    (g.qp q).DualCertificate tol (g.point d).z ↔ q.DualCertificate tol d.z := by
  have e1 : ‖(g.point d).z‖ = ‖d.z‖ := Signed.norm ..
  have e2 : ‖(g.qp q).G *ᵥ (g.point d).z‖ = ‖q.G *ᵥ d.z‖ := by
    simp only [Relabel.point]; rw [Relabel.mulG, Signed.norm]
  have e3 : ‖(g.qp q).H *ᵥ (g.point d).z‖ = ‖q.H *ᵥ d.z‖ := by
    simp only [Relabel.point]; rw [Relabel.mulH, Signed.norm]
  have e4 : (g.qp q).f ⬝ᵥ (g.point d).z = q.f ⬝ᵥ d.z := Signed.dot ..
  have e5 : ∀ i, ((g.qp q).A *ᵥ (g.point d).z) i = (q.A *ᵥ d.z) (g.v i) := fun i => by
    simp only [Relabel.point]; rw [Relabel.mulA]; rfl
  refine ⟨fun h => ⟨fun i => ?_, ?_, ?_, ?_, ?_⟩, fun h => ⟨fun i => ?_, ?_, ?_, ?_, ?_⟩⟩
  · have := h.ineq (g.v.symm i)
    rw [e5, Equiv.apply_symm_apply, e1] at this; exact this
  · have := h.eq; rw [e2, e1] at this; exact this
  · have := h.flat; rw [e3, e1] at this; exact this
  · have := h.descent; rw [e4] at this; exact this
  · have := h.nonzero; rw [e1] at this; exact this
  · rw [e5, e1]; exact h.ineq _
  · rw [e2, e1]; exact h.eq
  · rw [e3, e1]; exact h.flat
  · rw [e4]; exact h.descent
  · rw [e1]; exact h.nonzero

theorem flag_relabel (d : PD nz nl nv) (e : ExitFlag) : Flag (g.qp q) o (g.point d) e ↔ Flag q o d e := by
  constructor
  · intro h
    cases h with
    | primal h h' => exact .primal ((primal_relabel g _ d).1 h) (mt (dual_relabel g _ d).2 h')
    | dual h h' => exact .dual (mt (primal_relabel g _ d).2 h) ((dual_relabel g _ d).1 h')
    | both h h' => exact .both ((primal_relabel g _ d).1 h) ((dual_relabel g _ d).1 h')
  · intro h
    cases h with
    | primal h h' => exact .primal ((primal_relabel g _ d).2 h) (mt (dual_relabel g _ d).1 h')
    | dual h h' => exact .dual (mt (primal_relabel g _ d).1 h) ((dual_relabel g _ d).2 h')
    | both h h' => exact .both ((primal_relabel g _ d).2 h) ((dual_relabel g _ d).2 h')

theorem finish_relabel (before : List (Msg ℝ)) (out : SolverOut ℝ) (p : Parts) (x : PD nz nl nv) :
    g.result (finish q o before out p x) = finish (g.qp q) o before out p (g.point x) := by
  simp only [finish, Relabel.result, tolerance_relabel, Option.map]

theorem outer_relabel {E0 : ℝ} {s : Iterate nz nl nv} {r} (h : Outer q o E0 s r) :
    Outer (g.qp q) o E0 (s.relabel g) (g.result r) := by
  induction h with
  | @proxLimit s hk =>
    rw [finish_relabel]
    exact Outer.proxLimit (q := g.qp q) (s := s.relabel g) hk
  | @success s hk hs =>
    rw [finish_relabel]
    have := Outer.success (q := g.qp q) (E0 := E0) (s := s.relabel g) hk ((stops_relabel g s).2 hs)
    rw [iterLine_relabel, show (s.relabel g).x = g.point s.x from rfl, residual_relabel] at this
    exact this
  | @throws s hk hs hb =>
    have := Outer.throws (q := g.qp q) (E0 := E0) (s := s.relabel g) hk (mt (stops_relabel g s).1 hs)
      (by rw [show (s.relabel g).x = g.point s.x from rfl, residual_relabel]; exact hb)
    rw [opening_relabel] at this
    exact this
  | @newtonLimit s f x hk hf hn hx =>
    rw [finish_relabel]
    have := Outer.newtonLimit (q := g.qp q) (E0 := E0) (s := s.relabel g) (f := f.relabel g) (x := g.point x)
      hk (solved_relabel g hf) hn (by
        show (f.seen.norm < (residual (g.qp q) o (g.point s.x)).norm ∧ g.point x = (g.point f.x).clip) ∨
          (¬f.seen.norm < (residual (g.qp q) o (g.point s.x)).norm ∧ g.point x = g.point s.x)
        rw [residual_relabel]
        rcases hx with ⟨h1, rfl⟩ | ⟨h1, rfl⟩
        · exact .inl ⟨h1, rfl⟩
        · exact .inr ⟨h1, rfl⟩)
    rw [opening_relabel, residual_relabel] at this
    exact this
  | @infeasible s f e hk hf hn hc he =>
    rw [finish_relabel, Relabel.point_diff]
    have := Outer.infeasible (q := g.qp q) (E0 := E0) (s := s.relabel g) (f := f.relabel g) (e := e)
      hk (solved_relabel g hf) hn hc (by
        have := (flag_relabel g _ _).2 he
        rw [Relabel.point_diff] at this
        exact this)
    rw [opening_relabel] at this
    exact this
  | @step s f r hk hf hn hc hr ih =>
    have := Outer.step (q := g.qp q) (E0 := E0) (s := s.relabel g) (f := f.relabel g) (r := g.result r)
      hk (solved_relabel g hf) hn (by
        intro hc' e
        show ¬Flag (g.qp q) o ((g.point f.x.clip).diff (g.point s.x)) e
        rw [← Relabel.point_diff, flag_relabel]
        exact hc hc' e)
      (by
        have e1 : ((f.relabel g).x.clip.diff (s.relabel g).x).length = (f.x.clip.diff s.x).length := by
          rw [← Relabel.point_length g (f.x.clip.diff s.x), Relabel.point_diff]; rfl
        rw [e1, nextTol_relabel]
        exact ih)
    rw [opening_relabel] at this
    exact this

/-- The method does not depend on how the problem is written down. -/
theorem run_relabel {x : PD nz nl nv} {sub : ℝ} {r : Result nz nl nv} (h : Run q o x sub r) :
    Run (g.qp q) o (g.point x) sub (g.result r) := by
  cases h with
  | throws h => exact .throws h
  | @starts r h hr =>
    have := outer_relabel g hr
    refine Run.starts h (r := g.result r) ?_
    rw [residual_relabel]
    exact this

end Method

/-! ### Optimal control problems -/

namespace Signed
variable {n : Nat} (s : Signed n)

theorem mat_neg_one : s.mat s (-1) = -1 := by
  ext i j
  simp only [mat, of_apply, Matrix.neg_apply]
  by_cases h : i = j
  · subst h
    have := s.sq i
    simp only [Matrix.one_apply_eq]
    linear_combination -this
  · rw [Matrix.one_apply_ne h, Matrix.one_apply_ne fun e => h (s.order.injective e)]
    simp

theorem mat_zero {m : Nat} (t : Signed m) : s.mat t 0 = 0 := by
  ext i j; simp [mat]

end Signed

namespace StageRelabel
variable {N nx nu nc : Nat} (g : StageRelabel N nx nu nc)

theorem stage_order (a) : Ocp.stage (g.stacked.z.order a) = ((Ocp.stage a).1,
    Sum.map (g.x (Ocp.stage a).1).order (g.u (Ocp.stage a).1).order (Ocp.stage a).2) := by
  simp [stacked, Ocp.stage, Ocp.block, Equiv.prodShear]

theorem block_l (a) : Ocp.block (g.stacked.l.order a) = ((Ocp.block a).1, (g.x (Ocp.block a).1).order (Ocp.block a).2) := by
  simp [stacked, Ocp.block, Equiv.prodShear]

theorem block_v (a) : Ocp.block (g.stacked.v a) = ((Ocp.block a).1, g.c (Ocp.block a).1 (Ocp.block a).2) := by
  simp [stacked, Ocp.block, Equiv.prodShear]

theorem sign_z (a) : g.stacked.z.sign a = Sum.elim (g.x (Ocp.stage a).1).sign (g.u (Ocp.stage a).1).sign
    (Ocp.stage a).2 := rfl

theorem sign_l (a) : g.stacked.l.sign a = (g.x (Ocp.block a).1).sign (Ocp.block a).2 := rfl

theorem states_vec (z : Fin ((N + 1) * (nx + nu)) → ℝ) (i : Fin (N + 1)) :
    Ocp.states (g.stacked.z.vec z) i = (g.x i).vec (Ocp.states z i) := by
  funext j
  have e : finSumFinEquiv.symm (Fin.castAdd nu j) = .inl j := finSumFinEquiv_symm_apply_castAdd j
  simp [Ocp.states, Signed.vec, stacked, Equiv.prodShear, Ocp.stack, Ocp.stage, Ocp.block]

theorem controls_vec (z : Fin ((N + 1) * (nx + nu)) → ℝ) (i : Fin (N + 1)) :
    Ocp.controls (g.stacked.z.vec z) i = (g.u i).vec (Ocp.controls z i) := by
  funext j
  have e : finSumFinEquiv.symm (Fin.natAdd nx j) = .inr j := finSumFinEquiv_symm_apply_natAdd j
  simp [Ocp.controls, Signed.vec, stacked, Equiv.prodShear, Ocp.stack, Ocp.stage, Ocp.block]

theorem toQP (p : Ocp N nx nu nc) : (g.ocp p).toQP = g.stacked.qp p.toQP := by
  unfold Relabel.qp Ocp.toQP
  simp only [QP.mk.injEq]
  refine ⟨?_, ?_, ?_, ?_, ?_, ?_⟩
  · ext a a'
    simp only [Signed.mat, of_apply, stage_order, sign_z]
    by_cases h : (Ocp.stage a).1 = (Ocp.stage a').1
    · rw [if_pos h, if_pos h, h]
      rcases (Ocp.stage a).2 with i | i <;> rcases (Ocp.stage a').2 with j | j <;>
        simp [ocp, Signed.mat]
      ring
    · simp [if_neg h]
  · funext a
    simp only [Signed.vec, Ocp.stack, stage_order, sign_z]
    rcases (Ocp.stage a).2 with i | i <;> simp [ocp, Signed.vec]
  · ext a a'
    simp only [Signed.mat, of_apply, stage_order, block_l, sign_z, sign_l]
    by_cases h : (Ocp.stage a').1 = (Ocp.block a).1
    · rw [if_pos h, if_pos h, h]
      rcases (Ocp.stage a').2 with j | j
      · simp only [fromCols_apply_inl, Sum.map_inl, Sum.elim_inl]
        conv_lhs => rw [← Signed.mat_neg_one (g.x (Ocp.block a).1)]
        rfl
      · simp
    · rw [if_neg h, if_neg h]
      rcases Fin.eq_zero_or_eq_succ (Ocp.block a).1 with h0 | ⟨i, h0⟩
      · rw [h0]; simp
      · rw [h0]
        simp only [Fin.cases_succ]
        by_cases h' : (Ocp.stage a').1 = i.castSucc
        · rw [if_pos h', if_pos h', h']
          rcases (Ocp.stage a').2 with j | j <;> simp [ocp, Signed.mat]
        · simp [if_neg h']
  · funext a
    simp only [Signed.vec, block_l, sign_l]
    rcases Fin.eq_zero_or_eq_succ (Ocp.block a).1 with h0 | ⟨i, h0⟩
    · rw [h0]; simp [ocp, Signed.vec]
    · rw [h0]; simp [ocp, Signed.vec]
  · ext a a'
    simp only [Signed.mat, of_apply, stage_order, sign_z, Signed.ofPerm, block_v]
    by_cases h : (Ocp.stage a').1 = (Ocp.block a).1
    · rw [if_pos h, if_pos h, h]
      rcases (Ocp.stage a').2 with j | j <;> simp [ocp, Signed.mat, Signed.ofPerm]
    · simp [if_neg h]
  · funext a
    simp [block_v, ocp]

end StageRelabel
end Fbstab
