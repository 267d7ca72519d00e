import Verif.Spec.Padding
import Verif.Spec.Options
import Mathlib.Algebra.BigOperators.Group.Finset.Basic

/-!
# The method does not see constraints that restrict nothing
-/

namespace Fbstab
open Matrix

namespace Padding
variable {nz nl nv nv' : Nat} (g : Padding nv nv') (q : QP nz nl nv)

/-- A constraint is an old one or a new one. -/
theorem old_or_new (i : Fin nv') : (∃ k, g.row k = i) ∨ ¬∃ k, g.row k = i := em _

@[simp] theorem vec_row (x : Fin nv → ℝ) (k : Fin nv) : g.vec x (g.row k) = x k := g.inj.extend_apply _ _ _

theorem vec_new (x : Fin nv → ℝ) {i : Fin nv'} (h : ¬∃ k, g.row k = i) : g.vec x i = 0 :=
  Function.extend_apply' _ _ _ h

theorem ext_vec {x : Fin nv → ℝ} {y : Fin nv' → ℝ} (h1 : ∀ k, y (g.row k) = x k)
    (h2 : ∀ i, (¬∃ k, g.row k = i) → y i = 0) : y = g.vec x := by
  funext i
  rcases g.old_or_new i with ⟨k, rfl⟩ | h
  · rw [h1, vec_row]
  · rw [h2 i h, g.vec_new _ h]

theorem vec_comp (x : Fin nv → ℝ) : g.vec x ∘ g.row = x := funext fun k => g.vec_row x k

theorem vec_add (x y : Fin nv → ℝ) : g.vec (x + y) = g.vec x + g.vec y :=
  (g.ext_vec (fun k => by simp) (fun i h => by simp [g.vec_new _ h])).symm

theorem vec_sub (x y : Fin nv → ℝ) : g.vec (x - y) = g.vec x - g.vec y :=
  (g.ext_vec (fun k => by simp) (fun i h => by simp [g.vec_new _ h])).symm

theorem vec_smul (a : ℝ) (x : Fin nv → ℝ) : g.vec (a • x) = a • g.vec x :=
  (g.ext_vec (fun k => by simp) (fun i h => by simp [g.vec_new _ h])).symm

theorem vec_inj {x y : Fin nv → ℝ} : g.vec x = g.vec y ↔ x = y :=
  ⟨fun h => by rw [← g.vec_comp x, h, g.vec_comp], fun h => h ▸ rfl⟩

theorem sum (F : Fin nv' → ℝ) (h : ∀ i, (¬∃ k, g.row k = i) → F i = 0) : ∑ i, F i = ∑ k, F (g.row k) :=
  (Fintype.sum_of_injective g.row g.inj _ _ (fun i hi => h i hi) (fun _ => rfl)).symm

theorem dot (w : Fin nv' → ℝ) (x : Fin nv → ℝ) : w ⬝ᵥ g.vec x = (w ∘ g.row) ⬝ᵥ x := by
  rw [dotProduct, g.sum _ fun i h => by rw [g.vec_new _ h, mul_zero]]
  simp only [vec_row]; rfl

theorem euclid (x : Fin nv → ℝ) : Fbstab.euclid (g.vec x) = Fbstab.euclid x := by
  rw [Fbstab.euclid, Fbstab.euclid, dot, vec_comp]

theorem norm (x : Fin nv → ℝ) : ‖g.vec x‖ = ‖x‖ := by
  apply le_antisymm
  · refine (pi_norm_le_iff_of_nonneg (norm_nonneg _)).2 fun i => ?_
    rcases g.old_or_new i with ⟨k, rfl⟩ | h
    · rw [vec_row]; exact norm_le_pi_norm x _
    · rw [g.vec_new _ h, norm_zero]; exact norm_nonneg _
  · refine (pi_norm_le_iff_of_nonneg (norm_nonneg _)).2 fun k => ?_
    rw [← g.vec_row x k]; exact norm_le_pi_norm (g.vec x) _

theorem b_row (k : Fin nv) : (g.qp q).b (g.row k) = q.b k := g.inj.extend_apply _ _ _

theorem b_new {i : Fin nv'} (h : ¬∃ k, g.row k = i) : (g.qp q).b i = g.bound i := Function.extend_apply' _ _ _ h

theorem mulA (x : Fin nz → ℝ) : (g.qp q).A *ᵥ x = g.vec (q.A *ᵥ x) := by
  refine g.ext_vec (fun k => ?_) (fun i h => ?_)
  · show ∑ j, g.vec (fun k => q.A k j) (g.row k) * x j = _
    simp only [vec_row]; rfl
  · show ∑ j, g.vec (fun k => q.A k j) i * x j = _
    simp only [g.vec_new _ h, zero_mul, Finset.sum_const_zero]

theorem mulAT (v : Fin nv → ℝ) : (g.qp q).Aᵀ *ᵥ g.vec v = q.Aᵀ *ᵥ v := by
  funext j
  show (fun i => g.vec (fun k => q.A k j) i) ⬝ᵥ g.vec v = _
  rw [dot]
  show (g.vec (fun k => q.A k j) ∘ g.row) ⬝ᵥ v = _
  rw [vec_comp]; rfl

theorem lagrangeGrad (z : Fin nz → ℝ) (l : Fin nl → ℝ) (v : Fin nv → ℝ) :
    (g.qp q).lagrangeGrad z l (g.vec v) = q.lagrangeGrad z l v := by
  rw [QP.lagrangeGrad, mulAT]; rfl

theorem convex (hc : q.Convex) : (g.qp q).Convex := ⟨hc.symm, hc.nonneg⟩

/-! ### Points -/

theorem point_along (x d : PD nz nl nv) (t : ℝ) : g.point (x.along t d) = (g.point x).along t (g.point d) := by
  simp only [PD.along, point, vec_add, vec_smul]

theorem point_diff (x d : PD nz nl nv) : g.point (x.diff d) = (g.point x).diff (g.point d) := by
  simp only [PD.diff, point, vec_sub]

theorem point_clip (x : PD nz nl nv) : g.point x.clip = (g.point x).clip := by
  simp only [PD.clip, point, PD.mk.injEq, true_and]
  exact (g.ext_vec (fun k => by simp) (fun i h => by simp [g.vec_new _ h])).symm

theorem point_length (x : PD nz nl nv) : (g.point x).length = x.length := by
  simp only [PD.length, point, dot, vec_comp]

end Padding

namespace Method
variable {nz nl nv nv' : Nat} (g : Padding nv nv') {q : QP nz nl nv} {o : Params ℝ}

theorem residual_pad (x : PD nz nl nv) : residual (g.qp q) o (g.point x) = residual q o x := by
  simp only [residual, Padding.point]
  rw [Padding.lagrangeGrad, Padding.mulA]
  refine Parts.ext rfl rfl ?_
  refine (congrArg euclid (g.ext_vec (fun k => ?_) fun i h => ?_)).trans (g.euclid _)
  · simp only [Pi.sub_apply, g.b_row, g.vec_row]
  · have hb : (0 : ℝ) ≤ g.bound i := g.pos i
    simp [g.b_new _ h, g.vec_new _ h, hb]

theorem pairs_pad_row (c x : PD nz nl nv) (k : Fin nv) :
    pairs (g.qp q) o (g.point c) (g.point x) (g.row k) = pairs q o c x k := by
  simp only [pairs, Padding.point]
  rw [Padding.mulA, g.b_row, g.vec_row, g.vec_row, g.vec_row]

theorem pairs_pad_new (c x : PD nz nl nv) {i : Fin nv'} (h : ¬∃ k, g.row k = i) :
    pairs (g.qp q) o (g.point c) (g.point x) i = g.bound i := by
  simp only [pairs, Padding.point]
  rw [Padding.mulA, g.b_new _ h, g.vec_new _ h, g.vec_new _ h, g.vec_new _ h]
  ring

theorem phi_new {alpha b : ℝ} (hb : 0 ≤ b) : phi alpha b 0 = 0 := by
  have : √(b ^ 2 + 0 ^ 2) = b := by rw [zero_pow two_ne_zero, add_zero, Real.sqrt_sq hb]
  rw [phi, this]; simp

theorem subResidual_pad (c x : PD nz nl nv) :
    subResidual (g.qp q) o (g.point c) (g.point x) = subResidual q o c x := by
  simp only [subResidual]
  refine Parts.ext ?_ rfl ?_
  · simp only [Padding.point]
    rw [Padding.lagrangeGrad]
  · refine (congrArg Fbstab.euclid (g.ext_vec (fun k => ?_) fun i h => ?_)).trans (g.euclid _)
    · rw [pairs_pad_row]; simp only [Padding.point, g.vec_row]
    · rw [pairs_pad_new g _ _ h]
      simp only [Padding.point, g.vec_new _ h]
      exact phi_new (g.pos i)

theorem merit_pad (c x : PD nz nl nv) :
    merit (g.qp q) o (g.point c) (g.point x) = merit q o c x := by
  rw [merit, subResidual_pad, merit]

theorem isDirection_pad {c x d : PD nz nl nv} (h : IsDirection q o c x d) :
    IsDirection (g.qp q) o (g.point c) (g.point x) (g.point d) := by
  obtain ⟨h1, h2, h3⟩ := h
  refine ⟨?_, h2, fun i => ?_⟩
  · simp only [Padding.point]
    rw [Padding.mulAT, Padding.lagrangeGrad]
    exact h1
  · rcases g.old_or_new i with ⟨k, rfl⟩ | hn
    · simp only [pairs_pad_row]
      simp only [Padding.point, Padding.mulA, g.vec_row]
      exact h3 k
    · simp only [pairs_pad_new g _ _ hn]
      simp only [Padding.point, Padding.mulA, g.vec_new _ hn]
      rw [phi_new (g.pos i)]
      simp

theorem passes_pad (c x d : PD nz nl nv) (ms : List ℝ) (t : ℝ) :
    Passes (g.qp q) o (g.point c) (g.point x) (g.point d) ms t ↔ Passes q o c x d ms t := by
  rw [Passes, ← Padding.point_along, merit_pad, merit_pad, Passes]

theorem reductions_pad {c x d : PD nz nl nv} {ms : List ℝ} {j : Nat} (h : Reductions q o c x d ms j) :
    Reductions (g.qp q) o (g.point c) (g.point x) (g.point d) ms j :=
  ⟨h.le, fun i hi => by rw [passes_pad]; exact h.failed i hi,
    fun hj => by rw [passes_pad]; exact h.passed hj⟩

theorem acceptable_pad (c : PD nz nl nv) (tol : ℝ) (x : PD nz nl nv) :
    Acceptable (g.qp q) o (g.point c) tol (g.point x) ↔ Acceptable q o c tol x := by
  rw [Acceptable, subResidual_pad, residual_pad, residual_pad, Acceptable]

theorem line_pad (c : PD nz nl nv) (i : Nat) (t : ℝ) (x : PD nz nl nv) :
    line (g.qp q) o (g.point c) i t (g.point x) = line q o c i t x := by
  rw [line, subResidual_pad, line]

/-- What a subproblem yields, with the new constraints. -/
noncomputable def Found.pad (f : Found nz nl nv) : Found nz nl nv' := { f with x := g.point f.x }

theorem inner_pad {c : PD nz nl nv} {tol : ℝ} {i t n ms x f} (h : Inner q o c tol i t n ms x f) :
    Inner (g.qp q) o (g.point c) tol i t n ms (g.point x) (f.pad g) := by
  induction h with
  | accept hi ha =>
    have := Inner.accept (q := g.qp q) (ms := by assumption) (t := by assumption) (n := by assumption) hi
      ((acceptable_pad g _ _ _).2 ha)
    rw [residual_pad, subResidual_pad, line_pad] at this
    exact this
  | @newtonLimit i t n ms x hi ha hn =>
    have := Inner.newtonLimit (q := g.qp q) (ms := ms) (t := t) hi
      (mt (acceptable_pad g _ _ _).1 ha) hn
    rw [residual_pad, subResidual_pad, line_pad] at this
    exact this
  | @innerLimit i t n ms x d j hi ha hn hd hj =>
    have := Inner.innerLimit (q := g.qp q) (ms := ms) (t := t) hi
      (mt (acceptable_pad g _ _ _).1 ha) hn (isDirection_pad g hd)
      (by rw [merit_pad]; exact reductions_pad g hj)
    rw [residual_pad, line_pad, ← Padding.point_along, ← Padding.point_along,
      subResidual_pad] at this
    exact this
  | @step i t n ms x d j f hi ha hn hd hj hr ih =>
    have := Inner.step (q := g.qp q) (ms := ms) (t := t) (f := f.pad g) hi
      (mt (acceptable_pad g _ _ _).1 ha) hn (isDirection_pad g hd)
      (by rw [merit_pad]; exact reductions_pad g hj)
      (by rw [merit_pad, ← Padding.point_along]; exact ih)
    rw [line_pad] at this
    exact this

/-- An iterate with the new constraints. -/
noncomputable def Iterate.pad (s : Iterate nz nl nv) : Iterate nz nl nv' := { s with x := g.point s.x }

theorem stops_pad (ht : tolerance (g.qp q) o = tolerance q o) (s : Iterate nz nl nv) :
    Stops (g.qp q) o (s.pad g) ↔ Stops q o s := by
  rw [Stops, ht, Stops]
  show (residual (g.qp q) o (g.point s.x)).norm ≤ _ ∨ _ ↔ _
  rw [residual_pad]
  rfl

theorem iterLine_pad (s : Iterate nz nl nv) : iterLine (g.qp q) o (s.pad g) = iterLine q o s := by
  simp only [iterLine, Iterate.pad, residual_pad]

theorem opening_pad (s : Iterate nz nl nv) : opening (g.qp q) o (s.pad g) = opening q o s := by
  rw [opening, iterLine_pad]
  simp only [Iterate.pad, residual_pad, opening]

theorem nextTol_pad (s : Iterate nz nl nv) : nextTol (g.qp q) o (s.pad g) = nextTol q o s := by
  simp only [nextTol, Iterate.pad, residual_pad]

theorem solved_pad (ht : tolerance (g.qp q) o = tolerance q o) {s : Iterate nz nl nv} {f} (h : Solved q o s f) :
    Solved (g.qp q) o (s.pad g) (f.pad g) :=
  ⟨mt (stops_pad g ht s).1 h.goes, by
    show _ ≤ (residual (g.qp q) o (g.point s.x)).norm
    rw [residual_pad]; exact h.bounds, by
    rw [nextTol_pad]; exact inner_pad g h.inner⟩

theorem primal_pad (tol : ℝ) (d : PD nz nl nv) :
    (g.qp q).PrimalCertificate tol (g.point d).l (g.point d).v ↔ q.PrimalCertificate tol d.l d.v := by
  have e1 : ‖(g.qp q).Aᵀ *ᵥ (g.point d).v + (g.qp q).Gᵀ *ᵥ (g.point d).l‖ = ‖q.Aᵀ *ᵥ d.v + q.Gᵀ *ᵥ d.l‖ := by
    simp only [Padding.point]
    rw [Padding.mulAT]; rfl
  have e2 : max ‖(g.point d).v‖ ‖(g.point d).l‖ = max ‖d.v‖ ‖d.l‖ := by
    simp only [Padding.point]
    rw [Padding.norm]
  have e3 : (g.qp q).b ⬝ᵥ (g.point d).v + (g.qp q).h ⬝ᵥ (g.point d).l = q.b ⬝ᵥ d.v + q.h ⬝ᵥ d.l := by
    simp only [Padding.point]
    rw [Padding.dot]
    have : (g.qp q).b ∘ g.row = q.b := funext fun k => g.b_row q k
    rw [this]; rfl
  exact ⟨fun h => ⟨by have := h.small; rwa [e1, e2] at this, by have := h.neg; rwa [e3] at this⟩,
    fun h => ⟨by rw [e1, e2]; exact h.small, by rw [e3]; exact h.neg⟩⟩

theorem dual_pad {tol : ℝ} (h0 : 0 ≤ tol) (d : PD nz nl nv) :
    (g.qp q).DualCertificate tol (g.point d).z ↔ q.DualCertificate tol d.z := by
  refine ⟨fun h => ⟨fun k => ?_, h.eq, h.flat, h.descent, h.nonzero⟩,
    fun h => ⟨fun i => ?_, h.eq, h.flat, h.descent, h.nonzero⟩⟩
  · have := h.ineq (g.row k)
    rw [Padding.mulA, g.vec_row] at this
    exact this
  · rw [Padding.mulA]
    rcases g.old_or_new i with ⟨k, rfl⟩ | hn
    · rw [g.vec_row]; exact h.ineq k
    · rw [g.vec_new _ hn]; exact mul_nonneg h0 (norm_nonneg _)

theorem flag_pad (h0 : 0 ≤ o.infeasTol) (d : PD nz nl nv) (e : ExitFlag) :
    Flag (g.qp q) o (g.point d) e ↔ Flag q o d e := by
  constructor
  · intro h
    cases h with
    | primal h h' => exact .primal ((primal_pad g _ d).1 h) (mt (dual_pad g h0 d).2 h')
    | dual h h' => exact .dual (mt (primal_pad g _ d).2 h) ((dual_pad g h0 d).1 h')
    | both h h' => exact .both ((primal_pad g _ d).1 h) ((dual_pad g h0 d).1 h')
  · intro h
    cases h with
    | primal h h' => exact .primal ((primal_pad g _ d).2 h) (mt (dual_pad g h0 d).1 h')
    | dual h h' => exact .dual (mt (primal_pad g _ d).1 h) ((dual_pad g h0 d).2 h')
    | both h h' => exact .both ((primal_pad g _ d).2 h) ((dual_pad g h0 d).2 h')

theorem finish_pad (ht : tolerance (g.qp q) o = tolerance q o) (before : List (Msg ℝ)) (out : SolverOut ℝ) (p : Parts)
    (x : PD nz nl nv) : g.result (finish q o before out p x) = finish (g.qp q) o before out p (g.point x) := by
  simp only [finish, Padding.result, ht, Option.map]

theorem outer_pad (ht : tolerance (g.qp q) o = tolerance q o) (h0 : 0 ≤ o.infeasTol) {E0 : ℝ}
    {s : Iterate nz nl nv} {r} (h : Outer q o E0 s r) : Outer (g.qp q) o E0 (s.pad g) (g.result r) := by
  induction h with
  | @proxLimit s hk =>
    rw [finish_pad g ht]
    exact Outer.proxLimit (q := g.qp q) (s := s.pad g) hk
  | @success s hk hs =>
    rw [finish_pad g ht]
    have := Outer.success (q := g.qp q) (E0 := E0) (s := s.pad g) hk ((stops_pad g ht s).2 hs)
    rw [iterLine_pad, show (s.pad g).x = g.point s.x from rfl, residual_pad] at this
    exact this
  | @throws s hk hs hb =>
    have := Outer.throws (q := g.qp q) (E0 := E0) (s := s.pad g) hk (mt (stops_pad g ht s).1 hs)
      (by rw [show (s.pad g).x = g.point s.x from rfl, residual_pad]; exact hb)
    rw [opening_pad] at this
    exact this
  | @newtonLimit s f x hk hf hn hx =>
    rw [finish_pad g ht]
    have := Outer.newtonLimit (q := g.qp q) (E0 := E0) (s := s.pad g) (f := f.pad g) (x := g.point x)
      hk (solved_pad g ht hf) hn (by
        show (f.seen.norm < (residual (g.qp q) o (g.point s.x)).norm ∧ g.point x = (g.point f.x).clip) ∨
          (¬f.seen.norm < (residual (g.qp q) o (g.point s.x)).norm ∧ g.point x = g.point s.x)
        rw [residual_pad]
        rcases hx with ⟨h1, rfl⟩ | ⟨h1, rfl⟩
        · exact .inl ⟨h1, g.point_clip _⟩
        · exact .inr ⟨h1, rfl⟩)
    rw [opening_pad, residual_pad] at this
    exact this
  | @infeasible s f e hk hf hn hc he =>
    rw [finish_pad g ht, Padding.point_diff, Padding.point_clip]
    have := Outer.infeasible (q := g.qp q) (E0 := E0) (s := s.pad g) (f := f.pad g) (e := e)
      hk (solved_pad g ht hf) hn hc (by
        have := (flag_pad g h0 _ _).2 he
        rw [Padding.point_diff, Padding.point_clip] at this
        exact this)
    rw [opening_pad] at this
    exact this
  | @step s f r hk hf hn hc hr ih =>
    have := Outer.step (q := g.qp q) (E0 := E0) (s := s.pad g) (f := f.pad g) (r := g.result r)
      hk (solved_pad g ht hf) hn (by
        intro hc' e
        show ¬Flag (g.qp q) o ((g.point f.x).clip.diff (g.point s.x)) e
        rw [← Padding.point_clip, ← Padding.point_diff, flag_pad g h0]
        exact hc hc' e)
      (by
        have e0 : (f.pad g).x.clip = g.point f.x.clip := (g.point_clip f.x).symm
        have e1 : ((f.pad g).x.clip.diff (s.pad g).x).length = (f.x.clip.diff s.x).length := by
          rw [← Padding.point_length g (f.x.clip.diff s.x), Padding.point_diff, e0]; rfl
        rw [e1, nextTol_pad, e0]
        exact ih)
    rw [opening_pad] at this
    exact this

/-- Before the first step, the step length is only compared with the stalling tolerance. -/
theorem Outer.longStep {E0 : ℝ} {s : Iterate nz nl nv} {r} (h : Outer q o E0 s r) (hs : o.stallTol < s.step) {t : ℝ}
    (ht : o.stallTol < t) : Outer q o E0 { s with step := t } r := by
  have key : Stops q o { s with step := t } ↔ Stops q o s := by
    simp only [Stops, not_le.2 hs, not_le.2 ht, or_false]
  have hsol : ∀ {f}, Solved q o s f → Solved q o { s with step := t } f :=
    fun hf => ⟨mt key.1 hf.goes, hf.bounds, hf.inner⟩
  cases h with
  | proxLimit hk => exact Outer.proxLimit (s := { s with step := t }) hk
  | success hk h => exact Outer.success (s := { s with step := t }) hk (key.2 h)
  | throws hk h hb => exact Outer.throws (s := { s with step := t }) hk (mt key.1 h) hb
  | newtonLimit hk hf hn hx => exact Outer.newtonLimit (s := { s with step := t }) hk (hsol hf) hn hx
  | infeasible hk hf hn hc he => exact Outer.infeasible (s := { s with step := t }) hk (hsol hf) hn hc he
  | step hk hf hn hc hr => exact Outer.step (s := { s with step := t }) hk (hsol hf) hn hc hr

theorem one_le_length_ones (hz : 0 < nz) : 1 ≤ PD.length (PD.ones : PD nz nl nv) := by
  refine Real.le_sqrt_of_sq_le ?_
  have h1 : (PD.ones : PD nz nl nv).z ⬝ᵥ (PD.ones : PD nz nl nv).z = nz := by simp [PD.ones, dotProduct]
  have h2 : (PD.ones : PD nz nl nv).l ⬝ᵥ (PD.ones : PD nz nl nv).l = nl := by simp [PD.ones, dotProduct]
  have h3 : (PD.ones : PD nz nl nv).v ⬝ᵥ (PD.ones : PD nz nl nv).v = nv := by simp [PD.ones, dotProduct]
  rw [h1, h2, h3]
  have : (1 : ℝ) ≤ nz := by exact_mod_cast hz
  have : (0 : ℝ) ≤ nl := Nat.cast_nonneg _
  have : (0 : ℝ) ≤ nv := Nat.cast_nonneg _
  linarith

/-- The method does not see constraints that restrict nothing. -/
theorem run_pad (hz : 0 < nz) (hr : o.relTol = 0) (hst : o.stallTol < 1) (h0 : 0 ≤ o.infeasTol) {x : PD nz nl nv} {sub : ℝ}
    {r : Result nz nl nv} (h : Run q o x sub r) : Run (g.qp q) o (g.point x) sub (g.result r) := by
  have ht : tolerance (g.qp q) o = tolerance q o := by simp only [tolerance, hr, zero_mul]
  cases h with
  | throws h => exact .throws h
  | @starts r h hr =>
    have := (outer_pad g ht h0 hr).longStep (t := PD.length (PD.ones : PD nz nl nv'))
      (lt_of_lt_of_le hst (one_le_length_ones hz)) (lt_of_lt_of_le hst (one_le_length_ones hz))
    refine Run.starts h (r := g.result r) ?_
    rw [residual_pad]
    exact this

end Method
end Fbstab
