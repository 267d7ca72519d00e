import Verif.Spec.Origin
import Verif.Proofs.Ops

/-!
# The method does not depend on where the origin is
-/

namespace Fbstab
open Matrix

namespace Origin
variable {nz nl nv : Nat} (g : Origin nz nl) (q : QP nz nl nv)

theorem gradient (z : Fin nz → ℝ) (l : Fin nl → ℝ) (v : Fin nv → ℝ) :
    (g.qp q).lagrangeGrad (z + g.z) (l + g.l) v = q.lagrangeGrad z l v := by
  simp only [QP.lagrangeGrad, qp, mulVec_add]
  abel

theorem defect (z : Fin nz → ℝ) : (g.qp q).h - (g.qp q).G *ᵥ (z + g.z) = q.h - q.G *ᵥ z := by
  simp only [qp, mulVec_add]
  abel

theorem margin (z : Fin nz → ℝ) : (g.qp q).b - (g.qp q).A *ᵥ (z + g.z) = q.b - q.A *ᵥ z := by
  simp only [qp, mulVec_add]
  abel

theorem convex (hc : q.Convex) : (g.qp q).Convex := ⟨hc.symm, hc.nonneg⟩

theorem point_along (x d : PD nz nl nv) (t : ℝ) : g.point (x.along t d) = (g.point x).along t d := by
  simp only [PD.along, point, PD.mk.injEq, and_true]
  constructor <;> abel

theorem point_diff (x d : PD nz nl nv) : (g.point x).diff (g.point d) = x.diff d := by
  simp only [PD.diff, point, PD.mk.injEq, and_true]
  constructor <;> abel

theorem point_clip (x : PD nz nl nv) : g.point x.clip = (g.point x).clip := rfl

end Origin

namespace Method
variable {nz nl nv : Nat} (g : Origin nz nl) {q : QP nz nl nv} {o : Params ℝ}

theorem residual_origin (x : PD nz nl nv) : residual (g.qp q) o (g.point x) = residual q o x := by
  simp only [residual, Origin.point]
  rw [Origin.gradient, Origin.defect, Origin.margin]

theorem pairs_origin (c x : PD nz nl nv) (i : Fin nv) :
    pairs (g.qp q) o (g.point c) (g.point x) i = pairs q o c x i := by
  have := congrFun (g.margin q x.z) i
  simp only [Pi.sub_apply] at this
  simp only [pairs, Origin.point]
  rw [this]

theorem subResidual_origin (c x : PD nz nl nv) :
    subResidual (g.qp q) o (g.point c) (g.point x) = subResidual q o c x := by
  simp only [subResidual, pairs_origin]
  simp only [Origin.point]
  rw [Origin.gradient, Origin.defect, add_sub_add_right_eq_sub, add_sub_add_right_eq_sub]

theorem merit_origin (c x : PD nz nl nv) :
    merit (g.qp q) o (g.point c) (g.point x) = merit q o c x := by
  rw [merit, subResidual_origin, merit]

theorem isDirection_origin {c x d : PD nz nl nv} (h : IsDirection q o c x d) :
    IsDirection (g.qp q) o (g.point c) (g.point x) d := by
  obtain ⟨h1, h2, h3⟩ := h
  refine ⟨?_, ?_, fun i => ?_⟩
  · simp only [Origin.point]
    rw [Origin.gradient, add_sub_add_right_eq_sub]
    exact h1
  · simp only [Origin.point]
    rw [Origin.defect, add_sub_add_right_eq_sub]
    exact h2
  · simp only [pairs_origin]
    exact h3 i

theorem passes_origin (c x d : PD nz nl nv) (ms : List ℝ) (t : ℝ) :
    Passes (g.qp q) o (g.point c) (g.point x) d ms t ↔ Passes q o c x d ms t := by
  rw [Passes, ← Origin.point_along, merit_origin, merit_origin, Passes]

theorem reductions_origin {c x d : PD nz nl nv} {ms : List ℝ} {j : Nat} (h : Reductions q o c x d ms j) :
    Reductions (g.qp q) o (g.point c) (g.point x) d ms j :=
  ⟨h.le, fun i hi => by rw [passes_origin]; exact h.failed i hi,
    fun hj => by rw [passes_origin]; exact h.passed hj⟩

theorem acceptable_origin (c : PD nz nl nv) (tol : ℝ) (x : PD nz nl nv) :
    Acceptable (g.qp q) o (g.point c) tol (g.point x) ↔ Acceptable q o c tol x := by
  rw [Acceptable, subResidual_origin, residual_origin, residual_origin, Acceptable]

theorem line_origin (c : PD nz nl nv) (i : Nat) (t : ℝ) (x : PD nz nl nv) :
    line (g.qp q) o (g.point c) i t (g.point x) = line q o c i t x := by
  rw [line, subResidual_origin, line]

/-- What a subproblem yields, moved. -/
def Found.origin (f : Found nz nl nv) : Found nz nl nv := { f with x := g.point f.x }

theorem inner_origin {c : PD nz nl nv} {tol : ℝ} {i t n ms x f} (h : Inner q o c tol i t n ms x f) :
    Inner (g.qp q) o (g.point c) tol i t n ms (g.point x) (f.origin g) := by
  induction h with
  | accept hi ha =>
    have := Inner.accept (q := g.qp q) (ms := by assumption) (t := by assumption) (n := by assumption) hi
      ((acceptable_origin g _ _ _).2 ha)
    rw [residual_origin, subResidual_origin, line_origin] at this
    exact this
  | @newtonLimit i t n ms x hi ha hn =>
    have := Inner.newtonLimit (q := g.qp q) (ms := ms) (t := t) hi
      (mt (acceptable_origin g _ _ _).1 ha) hn
    rw [residual_origin, subResidual_origin, line_origin] at this
    exact this
  | @innerLimit i t n ms x d j hi ha hn hd hj =>
    have := Inner.innerLimit (q := g.qp q) (ms := ms) (t := t) hi
      (mt (acceptable_origin g _ _ _).1 ha) hn (isDirection_origin g hd)
      (by rw [merit_origin]; exact reductions_origin g hj)
    rw [residual_origin, line_origin, ← Origin.point_along, ← Origin.point_along,
      subResidual_origin] at this
    exact this
  | @step i t n ms x d j f hi ha hn hd hj hr ih =>
    have := Inner.step (q := g.qp q) (ms := ms) (t := t) (f := f.origin g) hi
      (mt (acceptable_origin g _ _ _).1 ha) hn (isDirection_origin g hd)
      (by rw [merit_origin]; exact reductions_origin g hj)
      (by rw [merit_origin, ← Origin.point_along]; exact ih)
    rw [line_origin] at this
    exact this

/-- An iterate, moved. -/
def Iterate.origin (s : Iterate nz nl nv) : Iterate nz nl nv := { s with x := g.point s.x }

theorem stops_origin (ht : tolerance (g.qp q) o = tolerance q o) (s : Iterate nz nl nv) :
    Stops (g.qp q) o (s.origin g) ↔ Stops q o s := by
  rw [Stops, ht, Stops]
  show (residual (g.qp q) o (g.point s.x)).norm ≤ _ ∨ _ ↔ _
  rw [residual_origin]
  rfl

theorem iterLine_origin (s : Iterate nz nl nv) : iterLine (g.qp q) o (s.origin g) = iterLine q o s := by
  simp only [iterLine, Iterate.origin, residual_origin]

theorem opening_origin (s : Iterate nz nl nv) : opening (g.qp q) o (s.origin g) = opening q o s := by
  rw [opening, iterLine_origin]
  simp only [Iterate.origin, residual_origin, opening]

theorem nextTol_origin (s : Iterate nz nl nv) : nextTol (g.qp q) o (s.origin g) = nextTol q o s := by
  simp only [nextTol, Iterate.origin, residual_origin]

theorem solved_origin (ht : tolerance (g.qp q) o = tolerance q o) {s : Iterate nz nl nv} {f}
    (h : Solved q o s f) : Solved (g.qp q) o (s.origin g) (f.origin g) :=
  ⟨mt (stops_origin g ht s).1 h.goes, by
    show _ ≤ (residual (g.qp q) o (g.point s.x)).norm
    rw [residual_origin]; exact h.bounds, by
    rw [nextTol_origin]; exact inner_origin g h.inner⟩

theorem finish_origin (ht : tolerance (g.qp q) o = tolerance q o) (before : List (Msg ℝ)) (out : SolverOut ℝ)
    (p : Parts) (x : PD nz nl nv) :
    g.result (finish q o before out p x) = finish (g.qp q) o before out p (g.point x) := by
  simp only [finish, Origin.result, ht, Option.map]

theorem outer_origin (ht : tolerance (g.qp q) o = tolerance q o) (hcf : o.checkFeasibility = false) {E0 : ℝ}
    {s : Iterate nz nl nv} {r} (h : Outer q o E0 s r) :
    Outer (g.qp q) o E0 (s.origin g) (g.result r) := by
  induction h with
  | @proxLimit s hk =>
    rw [finish_origin g ht]
    exact Outer.proxLimit (q := g.qp q) (s := s.origin g) hk
  | @success s hk hs =>
    rw [finish_origin g ht]
    have := Outer.success (q := g.qp q) (E0 := E0) (s := s.origin g) hk ((stops_origin g ht s).2 hs)
    rw [iterLine_origin, show (s.origin g).x = g.point s.x from rfl, residual_origin] at this
    exact this
  | @throws s hk hs hb =>
    have := Outer.throws (q := g.qp q) (E0 := E0) (s := s.origin g) hk (mt (stops_origin g ht s).1 hs)
      (by rw [show (s.origin g).x = g.point s.x from rfl, residual_origin]; exact hb)
    rw [opening_origin] at this
    exact this
  | @newtonLimit s f x hk hf hn hx =>
    rw [finish_origin g ht]
    have := Outer.newtonLimit (q := g.qp q) (E0 := E0) (s := s.origin g) (f := f.origin g) (x := g.point x)
      hk (solved_origin g ht hf) hn (by
        show (f.seen.norm < (residual (g.qp q) o (g.point s.x)).norm ∧ g.point x = (g.point f.x).clip) ∨
          (¬f.seen.norm < (residual (g.qp q) o (g.point s.x)).norm ∧ g.point x = g.point s.x)
        rw [residual_origin]
        rcases hx with ⟨h1, rfl⟩ | ⟨h1, rfl⟩
        · exact .inl ⟨h1, rfl⟩
        · exact .inr ⟨h1, rfl⟩)
    rw [opening_origin, residual_origin] at this
    exact this
  | infeasible hk hf hn hc he => rw [hcf] at hc; cases hc
  | @step s f r hk hf hn hc hr ih =>
    have := Outer.step (q := g.qp q) (E0 := E0) (s := s.origin g) (f := f.origin g) (r := g.result r)
      hk (solved_origin g ht hf) hn (by intro hc'; rw [hcf] at hc'; cases hc')
      (by
        have e1 : ((f.origin g).x.clip.diff (s.origin g).x).length = (f.x.clip.diff s.x).length := by
          rw [← Origin.point_diff g f.x.clip s.x]; rfl
        rw [e1, nextTol_origin]
        exact ih)
    rw [opening_origin] at this
    exact this

/-- The method does not depend on where the origin is. -/
theorem run_origin (ht : tolerance (g.qp q) o = tolerance q o) (hcf : o.checkFeasibility = false)
    {x : PD nz nl nv} {sub : ℝ} {r : Result nz nl nv} (h : Run q o x sub r) :
    Run (g.qp q) o (g.point x) sub (g.result r) := by
  cases h with
  | throws h => exact .throws h
  | @starts r h hr =>
    have := outer_origin g ht hcf hr
    refine Run.starts h (r := g.result r) ?_
    rw [residual_origin]
    exact this

end Method

/-! ### Optimal control problems -/

namespace StageOrigin
variable {N nx nu nc : Nat} (g : StageOrigin N nx nu)

theorem stacked_l (i : Fin (N + 1)) (j : Fin nx) : g.stacked.l (flatIdx i j) = g.l i j := by
  simp [stacked]

theorem states_z (i : Fin (N + 1)) : Ocp.states g.stacked.z i = g.x i := by
  rw [stacked]; exact congrFun (states_stack _ _) i

theorem controls_z (i : Fin (N + 1)) : Ocp.controls g.stacked.z i = g.u i := by
  rw [stacked]; exact congrFun (controls_stack _ _) i

theorem toQP (p : Ocp N nx nu nc) : (g.ocp p).toQP = g.stacked.qp p.toQP := by
  have hf : (g.ocp p).toQP.f = p.toQP.f - p.toQP.H *ᵥ g.stacked.z - p.toQP.Gᵀ *ᵥ g.stacked.l := by
    funext a
    revert a
    rw [forall_stage]
    intro i
    refine ⟨fun j => ?_, fun j => ?_⟩
    · rw [Pi.sub_apply, Pi.sub_apply, Ocp.H_x, states_z, controls_z]
      show Ocp.stack _ _ _ = Ocp.stack _ _ _ - _ - _
      rw [stack_xIdx, stack_xIdx]
      refine Fin.lastCases ?_ (fun i => ?_) i
      · rw [Ocp.GT_last_x, stacked_l]
        simp [ocp]
      · rw [Ocp.GT_castSucc_x, stacked_l, show (fun a => g.stacked.l (flatIdx i.succ a)) = g.l i.succ from
          funext fun a => g.stacked_l _ _]
        simp [ocp]
    · rw [Pi.sub_apply, Pi.sub_apply, Ocp.H_u, states_z, controls_z]
      show Ocp.stack _ _ _ = Ocp.stack _ _ _ - _ - _
      rw [stack_uIdx, stack_uIdx]
      refine Fin.lastCases ?_ (fun i => ?_) i
      · rw [Ocp.GT_last_u]
        simp [ocp]
      · rw [Ocp.GT_castSucc_u, show (fun a => g.stacked.l (flatIdx i.succ a)) = g.l i.succ from
          funext fun a => g.stacked_l _ _]
        simp [ocp]
  have hh : (g.ocp p).toQP.h = p.toQP.h + p.toQP.G *ᵥ g.stacked.z := by
    funext a
    revert a
    rw [forall_flat]
    intro i j
    refine Fin.cases ?_ (fun i => ?_) i
    · rw [Pi.add_apply, Ocp.G_zero, states_z]
      simp [Ocp.toQP, ocp]
      ring
    · rw [Pi.add_apply, Ocp.G_succ, states_z, states_z, controls_z]
      simp [Ocp.toQP, ocp]
      ring
  have hb : (g.ocp p).toQP.b = p.toQP.b + p.toQP.A *ᵥ g.stacked.z := by
    funext a
    revert a
    rw [forall_flat]
    intro i j
    rw [Pi.add_apply, Ocp.A_c, states_z, controls_z]
    simp [Ocp.toQP, ocp]
    ring
  unfold Origin.qp
  rw [← hf, ← hh, ← hb]
  rfl

theorem convex {p : Ocp N nx nu nc} (h : p.Convex) : (g.ocp p).Convex := ⟨h.Qsymm, h.Rsymm, h.nonneg⟩

end StageOrigin
end Fbstab
