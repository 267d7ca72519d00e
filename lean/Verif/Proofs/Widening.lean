import Verif.Spec.Widening
import Verif.Proofs.Padding

/-!
# The method does not see unknowns and equations that play no role
-/

namespace Fbstab
open Matrix

namespace Widening
variable {nz nz' nl nl' nv : Nat} (g : Widening nz nz' nl nl') (q : QP nz nl nv)

/-- The unknowns, as a padding. -/
def up : Padding nz nz' := ⟨g.unknown, g.uinj, 0, fun _ => le_rfl⟩

/-- The equations, as a padding. -/
def ep : Padding nl nl' := ⟨g.equation, g.einj, 0, fun _ => le_rfl⟩

theorem uvec_eq (x : Fin nz → ℝ) : g.uvec x = g.up.vec x := rfl
theorem evec_eq (x : Fin nl → ℝ) : g.evec x = g.ep.vec x := rfl

@[simp] theorem uvec_old (x : Fin nz → ℝ) (k : Fin nz) : g.uvec x (g.unknown k) = x k := g.up.vec_row x k
@[simp] theorem evec_old (x : Fin nl → ℝ) (k : Fin nl) : g.evec x (g.equation k) = x k := g.ep.vec_row x k
theorem uvec_new (x : Fin nz → ℝ) {i : Fin nz'} (h : ¬∃ k, g.unknown k = i) : g.uvec x i = 0 := g.up.vec_new x h
theorem evec_new (x : Fin nl → ℝ) {i : Fin nl'} (h : ¬∃ k, g.equation k = i) : g.evec x i = 0 := g.ep.vec_new x h

theorem costs_old (k : Fin nz) : g.costs (g.unknown k) = 0 := g.uinj.extend_apply _ _ _
theorem costs_new {i : Fin nz'} (h : ¬∃ k, g.unknown k = i) : g.costs i = g.cost i := Function.extend_apply' _ _ _ h

theorem costs_nonneg (i : Fin nz') : 0 ≤ g.costs i := by
  rcases g.up.old_or_new i with ⟨k, hk⟩ | h
  · have hk : g.unknown k = i := hk
    rw [← hk, costs_old]
  · rw [g.costs_new h]; exact g.nonneg i

theorem costs_uvec (x : Fin nz → ℝ) (i : Fin nz') : g.costs i * g.uvec x i = 0 := by
  rcases g.up.old_or_new i with ⟨k, hk⟩ | h
  · have hk : g.unknown k = i := hk
    rw [← hk, costs_old, zero_mul]
  · rw [g.uvec_new x h, mul_zero]

theorem uvec_add (x y : Fin nz → ℝ) : g.uvec (x + y) = g.uvec x + g.uvec y := g.up.vec_add x y
theorem evec_add (x y : Fin nl → ℝ) : g.evec (x + y) = g.evec x + g.evec y := g.ep.vec_add x y
theorem uvec_sub (x y : Fin nz → ℝ) : g.uvec (x - y) = g.uvec x - g.uvec y := g.up.vec_sub x y
theorem evec_sub (x y : Fin nl → ℝ) : g.evec (x - y) = g.evec x - g.evec y := g.ep.vec_sub x y
theorem uvec_smul (a : ℝ) (x : Fin nz → ℝ) : g.uvec (a • x) = a • g.uvec x := g.up.vec_smul a x
theorem evec_smul (a : ℝ) (x : Fin nl → ℝ) : g.evec (a • x) = a • g.evec x := g.ep.vec_smul a x
theorem uvec_neg (x : Fin nz → ℝ) : g.uvec (-x) = -g.uvec x := by
  have := g.uvec_smul (-1) x
  simpa using this
theorem evec_neg (x : Fin nl → ℝ) : g.evec (-x) = -g.evec x := by
  have := g.evec_smul (-1) x
  simpa using this
theorem udot (x y : Fin nz → ℝ) : g.uvec x ⬝ᵥ g.uvec y = x ⬝ᵥ y := by
  rw [uvec_eq, uvec_eq, g.up.dot, g.up.vec_comp]
theorem edot (x y : Fin nl → ℝ) : g.evec x ⬝ᵥ g.evec y = x ⬝ᵥ y := by
  rw [evec_eq, evec_eq, g.ep.dot, g.ep.vec_comp]
theorem ueuclid (x : Fin nz → ℝ) : euclid (g.uvec x) = euclid x := g.up.euclid x
theorem eeuclid (x : Fin nl → ℝ) : euclid (g.evec x) = euclid x := g.ep.euclid x
theorem unorm (x : Fin nz → ℝ) : ‖g.uvec x‖ = ‖x‖ := g.up.norm x
theorem enorm' (x : Fin nl → ℝ) : ‖g.evec x‖ = ‖x‖ := g.ep.norm x

theorem mulH (x : Fin nz → ℝ) : (g.qp q).H *ᵥ g.uvec x = g.uvec (q.H *ᵥ x) := by
  have e : (diagonal g.costs) *ᵥ g.uvec x = 0 := by
    funext i
    rw [mulVec_diagonal]
    exact g.costs_uvec x i
  show ((of fun i j => g.uvec (fun a => g.uvec (fun b => q.H a b) j) i) + diagonal g.costs) *ᵥ g.uvec x = _
  rw [add_mulVec, e, add_zero]
  refine g.up.ext_vec (fun k => ?_) (fun i h => ?_)
  · show (fun j => g.uvec (fun a => g.uvec (fun b => q.H a b) j) (g.unknown k)) ⬝ᵥ g.uvec x = _
    simp only [uvec_old]
    exact g.udot _ _
  · show (fun j => g.uvec (fun a => g.uvec (fun b => q.H a b) j) i) ⬝ᵥ g.uvec x = _
    simp only [g.uvec_new _ h]
    exact zero_dotProduct _

theorem mulG (x : Fin nz → ℝ) : (g.qp q).G *ᵥ g.uvec x = g.evec (q.G *ᵥ x) := by
  refine g.ep.ext_vec (fun k => ?_) (fun i h => ?_)
  · show (fun j => g.evec (fun a => g.uvec (fun b => q.G a b) j) (g.equation k)) ⬝ᵥ g.uvec x = _
    simp only [evec_old]
    exact g.udot _ _
  · show (fun j => g.evec (fun a => g.uvec (fun b => q.G a b) j) i) ⬝ᵥ g.uvec x = _
    simp only [g.evec_new _ h]
    exact zero_dotProduct _

theorem mulA (x : Fin nz → ℝ) : (g.qp q).A *ᵥ g.uvec x = q.A *ᵥ x := by
  funext i
  exact g.udot _ _

theorem mulGT (l : Fin nl → ℝ) : (g.qp q).Gᵀ *ᵥ g.evec l = g.uvec (q.Gᵀ *ᵥ l) := by
  refine g.up.ext_vec (fun k => ?_) (fun j h => ?_)
  · show (g.evec fun a => g.uvec (fun b => q.G a b) (g.unknown k)) ⬝ᵥ g.evec l = _
    simp only [uvec_old]
    exact g.edot _ _
  · show (g.evec fun a => g.uvec (fun b => q.G a b) j) ⬝ᵥ g.evec l = _
    simp only [g.uvec_new _ h]
    rw [edot]; exact zero_dotProduct _

theorem mulAT (v : Fin nv → ℝ) : (g.qp q).Aᵀ *ᵥ v = g.uvec (q.Aᵀ *ᵥ v) := by
  refine g.up.ext_vec (fun k => ?_) (fun j h => ?_)
  · show (fun i => g.uvec (fun b => q.A i b) (g.unknown k)) ⬝ᵥ v = _
    simp only [uvec_old]; rfl
  · show (fun i => g.uvec (fun b => q.A i b) j) ⬝ᵥ v = _
    simp only [g.uvec_new _ h]
    exact zero_dotProduct _

theorem lagrangeGrad (z : Fin nz → ℝ) (l : Fin nl → ℝ) (v : Fin nv → ℝ) :
    (g.qp q).lagrangeGrad (g.uvec z) (g.evec l) v = g.uvec (q.lagrangeGrad z l v) := by
  rw [QP.lagrangeGrad, mulH, mulGT, mulAT, QP.lagrangeGrad, uvec_add, uvec_add, uvec_add]; rfl

theorem equations (z : Fin nz → ℝ) : (g.qp q).h - (g.qp q).G *ᵥ g.uvec z = g.evec (q.h - q.G *ᵥ z) := by
  rw [mulG, evec_sub]; rfl

theorem mulH_any (x : Fin nz' → ℝ) :
    (g.qp q).H *ᵥ x = g.uvec (q.H *ᵥ (x ∘ g.unknown)) + fun i => g.costs i * x i := by
  show ((of fun i j => g.uvec (fun a => g.uvec (fun b => q.H a b) j) i) + diagonal g.costs) *ᵥ x = _
  rw [add_mulVec]
  congr 1
  · refine g.up.ext_vec (fun k => ?_) (fun i h => ?_)
    · show (fun j => g.uvec (fun a => g.uvec (fun b => q.H a b) j) (g.unknown k)) ⬝ᵥ x = _
      simp only [uvec_old]
      rw [dotProduct_comm]
      exact (g.up.dot x _).trans (dotProduct_comm _ _)
    · show (fun j => g.uvec (fun a => g.uvec (fun b => q.H a b) j) i) ⬝ᵥ x = _
      simp only [g.uvec_new _ h]
      exact zero_dotProduct _
  · funext i
    rw [mulVec_diagonal]

theorem convex (hc : q.Convex) : (g.qp q).Convex := by
  constructor
  · show ((of fun i j => g.uvec (fun a => g.uvec (fun b => q.H a b) j) i) + diagonal g.costs)ᵀ = _
    rw [transpose_add, diagonal_transpose]
    congr 1
    ext i j
    show g.uvec (fun a => g.uvec (fun b => q.H a b) i) j = g.uvec (fun a => g.uvec (fun b => q.H a b) j) i
    rcases g.up.old_or_new i with ⟨k, hk⟩ | hi
    · have hk : g.unknown k = i := hk
      subst hk
      rcases g.up.old_or_new j with ⟨m, hm⟩ | hj
      · have hm : g.unknown m = j := hm
        subst hm
        simp only [uvec_old]
        exact hc.symm.apply k m
      · rw [g.uvec_new _ hj, uvec_old, g.uvec_new _ hj]
    · have e : (fun a => g.uvec (fun b => q.H a b) i) = 0 := funext fun a => g.uvec_new _ hi
      rw [e, g.uvec_new _ hi]
      rcases g.up.old_or_new j with ⟨m, hm⟩ | hj
      · have hm : g.unknown m = j := hm
        subst hm
        rw [uvec_old]; rfl
      · rw [g.uvec_new _ hj]
  · intro x
    rw [mulH_any, dotProduct_add, uvec_eq, g.up.dot]
    refine add_nonneg (hc.nonneg _) (Finset.sum_nonneg fun i _ => ?_)
    have := mul_nonneg (g.costs_nonneg i) (mul_self_nonneg (x i))
    linarith

theorem forcing : (g.qp q).f ⬝ᵥ (g.qp q).f + (g.qp q).h ⬝ᵥ (g.qp q).h + (g.qp q).b ⬝ᵥ (g.qp q).b =
    q.f ⬝ᵥ q.f + q.h ⬝ᵥ q.h + q.b ⬝ᵥ q.b := by
  show g.uvec q.f ⬝ᵥ g.uvec q.f + g.evec q.h ⬝ᵥ g.evec q.h + q.b ⬝ᵥ q.b = _
  rw [udot, edot]

/-! ### Points -/

theorem point_along (x d : PD nz nl nv) (t : ℝ) : g.point (x.along t d) = (g.point x).along t (g.point d) := by
  simp only [PD.along, point, uvec_add, uvec_smul, evec_add, evec_smul]

theorem point_diff (x d : PD nz nl nv) : g.point (x.diff d) = (g.point x).diff (g.point d) := by
  simp only [PD.diff, point, uvec_sub, evec_sub]

theorem point_clip (x : PD nz nl nv) : g.point x.clip = (g.point x).clip := rfl

theorem point_length (x : PD nz nl nv) : (g.point x).length = x.length := by
  simp only [PD.length, point, udot, edot]

end Widening

namespace Method
variable {nz nz' nl nl' nv : Nat} (g : Widening nz nz' nl nl') {q : QP nz nl nv} {o : Params ℝ}

theorem residual_widen (x : PD nz nl nv) : residual (g.qp q) o (g.point x) = residual q o x := by
  simp only [residual, Widening.point]
  rw [Widening.lagrangeGrad, Widening.equations, Widening.mulA, g.ueuclid, g.eeuclid]
  rfl

theorem pairs_widen (c x : PD nz nl nv) : pairs (g.qp q) o (g.point c) (g.point x) = pairs q o c x := by
  funext i
  simp only [pairs, Widening.point]
  rw [Widening.mulA]
  rfl

theorem grad_widen (c x : PD nz nl nv) :
    (g.qp q).lagrangeGrad (g.point x).z (g.point x).l (g.point x).v + o.sigma0 • ((g.point x).z - (g.point c).z) =
      g.uvec (q.lagrangeGrad x.z x.l x.v + o.sigma0 • (x.z - c.z)) := by
  simp only [Widening.point]
  rw [Widening.lagrangeGrad, g.uvec_add, g.uvec_smul, g.uvec_sub]

theorem eqs_widen (c x : PD nz nl nv) :
    (g.qp q).h - (g.qp q).G *ᵥ (g.point x).z + o.sigma0 • ((g.point x).l - (g.point c).l) =
      g.evec (q.h - q.G *ᵥ x.z + o.sigma0 • (x.l - c.l)) := by
  simp only [Widening.point]
  rw [Widening.equations, g.evec_add, g.evec_smul, g.evec_sub x.l]

theorem subResidual_widen (c x : PD nz nl nv) :
    subResidual (g.qp q) o (g.point c) (g.point x) = subResidual q o c x := by
  simp only [subResidual]
  rw [grad_widen, eqs_widen, pairs_widen, g.ueuclid, g.eeuclid]
  rfl

theorem merit_widen (c x : PD nz nl nv) :
    merit (g.qp q) o (g.point c) (g.point x) = merit q o c x := by
  rw [merit, subResidual_widen, merit]

theorem isDirection_widen {c x d : PD nz nl nv} (h : IsDirection q o c x d) :
    IsDirection (g.qp q) o (g.point c) (g.point x) (g.point d) := by
  obtain ⟨h1, h2, h3⟩ := h
  refine ⟨?_, ?_, fun i => ?_⟩
  · rw [grad_widen]
    simp only [Widening.point]
    rw [Widening.mulH, Widening.mulGT, Widening.mulAT, ← g.uvec_smul, ← g.uvec_add, ← g.uvec_add, ← g.uvec_add,
      ← g.uvec_neg, h1]
  · rw [eqs_widen]
    simp only [Widening.point]
    rw [Widening.mulG, ← g.evec_neg, ← g.evec_neg, ← h2, ← g.evec_smul, ← g.evec_add]
  · simp only [pairs_widen]
    simp only [Widening.point]
    rw [Widening.mulA]
    exact h3 i

theorem passes_widen (c x d : PD nz nl nv) (ms : List ℝ) (t : ℝ) :
    Passes (g.qp q) o (g.point c) (g.point x) (g.point d) ms t ↔ Passes q o c x d ms t := by
  rw [Passes, ← Widening.point_along, merit_widen, merit_widen, Passes]

theorem reductions_widen {c x d : PD nz nl nv} {ms : List ℝ} {j : Nat} (h : Reductions q o c x d ms j) :
    Reductions (g.qp q) o (g.point c) (g.point x) (g.point d) ms j :=
  ⟨h.le, fun i hi => by rw [passes_widen]; exact h.failed i hi,
    fun hj => by rw [passes_widen]; exact h.passed hj⟩

theorem acceptable_widen (c : PD nz nl nv) (tol : ℝ) (x : PD nz nl nv) :
    Acceptable (g.qp q) o (g.point c) tol (g.point x) ↔ Acceptable q o c tol x := by
  rw [Acceptable, subResidual_widen, residual_widen, residual_widen, Acceptable]

theorem line_widen (c : PD nz nl nv) (i : Nat) (t : ℝ) (x : PD nz nl nv) :
    line (g.qp q) o (g.point c) i t (g.point x) = line q o c i t x := by
  rw [line, subResidual_widen, line]

/-- What a subproblem yields, with the new unknowns and equations. -/
noncomputable def Found.widen (f : Found nz nl nv) : Found nz' nl' nv := ⟨f.newtons, g.point f.x, f.seen, f.sub, f.log⟩

theorem inner_widen {c : PD nz nl nv} {tol : ℝ} {i t n ms x f} (h : Inner q o c tol i t n ms x f) :
    Inner (g.qp q) o (g.point c) tol i t n ms (g.point x) (f.widen g) := by
  induction h with
  | accept hi ha =>
    have := Inner.accept (q := g.qp q) (ms := by assumption) (t := by assumption) (n := by assumption) hi
      ((acceptable_widen g _ _ _).2 ha)
    rw [residual_widen, subResidual_widen, line_widen] at this
    exact this
  | @newtonLimit i t n ms x hi ha hn =>
    have := Inner.newtonLimit (q := g.qp q) (ms := ms) (t := t) hi
      (mt (acceptable_widen g _ _ _).1 ha) hn
    rw [residual_widen, subResidual_widen, line_widen] at this
    exact this
  | @innerLimit i t n ms x d j hi ha hn hd hj =>
    have := Inner.innerLimit (q := g.qp q) (ms := ms) (t := t) hi
      (mt (acceptable_widen g _ _ _).1 ha) hn (isDirection_widen g hd)
      (by rw [merit_widen]; exact reductions_widen g hj)
    rw [residual_widen, line_widen, ← Widening.point_along, ← Widening.point_along,
      subResidual_widen] at this
    exact this
  | @step i t n ms x d j f hi ha hn hd hj hr ih =>
    have := Inner.step (q := g.qp q) (ms := ms) (t := t) (f := f.widen g) hi
      (mt (acceptable_widen g _ _ _).1 ha) hn (isDirection_widen g hd)
      (by rw [merit_widen]; exact reductions_widen g hj)
      (by rw [merit_widen, ← Widening.point_along]; exact ih)
    rw [line_widen] at this
    exact this

/-- An iterate with the new unknowns and equations. -/
noncomputable def Iterate.widen (s : Iterate nz nl nv) : Iterate nz' nl' nv := ⟨s.k, s.newtons, g.point s.x, s.step, s.tol, s.seen, s.sub⟩

theorem stops_widen (ht : tolerance (g.qp q) o = tolerance q o) (s : Iterate nz nl nv) :
    Stops (g.qp q) o (s.widen g) ↔ Stops q o s := by
  rw [Stops, ht, Stops]
  show (residual (g.qp q) o (g.point s.x)).norm ≤ _ ∨ _ ↔ _
  rw [residual_widen]
  rfl

theorem iterLine_widen (s : Iterate nz nl nv) : iterLine (g.qp q) o (s.widen g) = iterLine q o s := by
  simp only [iterLine, Iterate.widen, residual_widen]

theorem opening_widen (s : Iterate nz nl nv) : opening (g.qp q) o (s.widen g) = opening q o s := by
  rw [opening, iterLine_widen]
  simp only [Iterate.widen, residual_widen, opening]

theorem nextTol_widen (s : Iterate nz nl nv) : nextTol (g.qp q) o (s.widen g) = nextTol q o s := by
  simp only [nextTol, Iterate.widen, residual_widen]

theorem solved_widen (ht : tolerance (g.qp q) o = tolerance q o) {s : Iterate nz nl nv} {f} (h : Solved q o s f) :
    Solved (g.qp q) o (s.widen g) (f.widen g) :=
  ⟨mt (stops_widen g ht s).1 h.goes, by
    show _ ≤ (residual (g.qp q) o (g.point s.x)).norm
    rw [residual_widen]; exact h.bounds, by
    rw [nextTol_widen]; exact inner_widen g h.inner⟩

theorem primal_widen (tol : ℝ) (d : PD nz nl nv) :
    (g.qp q).PrimalCertificate tol (g.point d).l (g.point d).v ↔ q.PrimalCertificate tol d.l d.v := by
  have e1 : ‖(g.qp q).Aᵀ *ᵥ (g.point d).v + (g.qp q).Gᵀ *ᵥ (g.point d).l‖ = ‖q.Aᵀ *ᵥ d.v + q.Gᵀ *ᵥ d.l‖ := by
    simp only [Widening.point]
    rw [Widening.mulAT, Widening.mulGT, ← g.uvec_add, g.unorm]
  have e2 : max ‖(g.point d).v‖ ‖(g.point d).l‖ = max ‖d.v‖ ‖d.l‖ := by
    simp only [Widening.point]
    rw [g.enorm']
  have e3 : (g.qp q).b ⬝ᵥ (g.point d).v + (g.qp q).h ⬝ᵥ (g.point d).l = q.b ⬝ᵥ d.v + q.h ⬝ᵥ d.l :=
    congrArg (q.b ⬝ᵥ d.v + ·) (g.edot q.h d.l)
  exact ⟨fun h => ⟨by have := h.small; rwa [e1, e2] at this, by have := h.neg; rwa [e3] at this⟩,
    fun h => ⟨by rw [e1, e2]; exact h.small, by rw [e3]; exact h.neg⟩⟩

theorem dual_widen (tol : ℝ) (d : PD nz nl nv) :
    (g.qp q).DualCertificate tol (g.point d).z ↔ q.DualCertificate tol d.z := by
  have e0 : (g.point d).z = g.uvec d.z := rfl
  have e1 : ‖(g.qp q).G *ᵥ g.uvec d.z‖ = ‖q.G *ᵥ d.z‖ := by rw [g.mulG, g.enorm']
  have e2 : ‖(g.qp q).H *ᵥ g.uvec d.z‖ = ‖q.H *ᵥ d.z‖ := by rw [g.mulH, g.unorm]
  have e3 : (g.qp q).f ⬝ᵥ g.uvec d.z = q.f ⬝ᵥ d.z := g.udot q.f d.z
  rw [e0]
  constructor
  · rintro ⟨h1, h2, h3, h4, h5⟩
    rw [g.mulA, g.unorm] at h1
    rw [e1, g.unorm] at h2
    rw [e2, g.unorm] at h3
    rw [e3] at h4
    rw [g.unorm] at h5
    exact ⟨h1, h2, h3, h4, h5⟩
  · rintro ⟨h1, h2, h3, h4, h5⟩
    constructor
    · rw [g.mulA, g.unorm]; exact h1
    · rw [e1, g.unorm]; exact h2
    · rw [e2, g.unorm]; exact h3
    · rw [e3]; exact h4
    · rw [g.unorm]; exact h5

theorem flag_widen (d : PD nz nl nv) (e : ExitFlag) :
    Flag (g.qp q) o (g.point d) e ↔ Flag q o d e := by
  constructor
  · intro h
    cases h with
    | primal h h' => exact .primal ((primal_widen g _ d).1 h) (mt (dual_widen g _ d).2 h')
    | dual h h' => exact .dual (mt (primal_widen g _ d).2 h) ((dual_widen g _ d).1 h')
    | both h h' => exact .both ((primal_widen g _ d).1 h) ((dual_widen g _ d).1 h')
  · intro h
    cases h with
    | primal h h' => exact .primal ((primal_widen g _ d).2 h) (mt (dual_widen g _ d).1 h')
    | dual h h' => exact .dual (mt (primal_widen g _ d).1 h) ((dual_widen g _ d).2 h')
    | both h h' => exact .both ((primal_widen g _ d).2 h) ((dual_widen g _ d).2 h')

theorem finish_widen (ht : tolerance (g.qp q) o = tolerance q o) (before : List (Msg ℝ)) (out : SolverOut ℝ) (p : Parts)
    (x : PD nz nl nv) : g.result (finish q o before out p x) = finish (g.qp q) o before out p (g.point x) := by
  simp only [finish, Widening.result, ht, Option.map]

theorem outer_widen (ht : tolerance (g.qp q) o = tolerance q o) {E0 : ℝ}
    {s : Iterate nz nl nv} {r} (h : Outer q o E0 s r) : Outer (g.qp q) o E0 (s.widen g) (g.result r) := by
  induction h with
  | @proxLimit s hk =>
    rw [finish_widen g ht]
    exact Outer.proxLimit (q := g.qp q) (s := s.widen g) hk
  | @success s hk hs =>
    rw [finish_widen g ht]
    have := Outer.success (q := g.qp q) (E0 := E0) (s := s.widen g) hk ((stops_widen g ht s).2 hs)
    rw [iterLine_widen, show (s.widen g).x = g.point s.x from rfl, residual_widen] at this
    exact this
  | @throws s hk hs hb =>
    have := Outer.throws (q := g.qp q) (E0 := E0) (s := s.widen g) hk (mt (stops_widen g ht s).1 hs)
      (by rw [show (s.widen g).x = g.point s.x from rfl, residual_widen]; exact hb)
    rw [opening_widen] at this
    exact this
  | @newtonLimit s f x hk hf hn hx =>
    rw [finish_widen g ht]
    have := Outer.newtonLimit (q := g.qp q) (E0 := E0) (s := s.widen g) (f := f.widen g) (x := g.point x)
      hk (solved_widen g ht hf) hn (by
        show (f.seen.norm < (residual (g.qp q) o (g.point s.x)).norm ∧ g.point x = (g.point f.x).clip) ∨
          (¬f.seen.norm < (residual (g.qp q) o (g.point s.x)).norm ∧ g.point x = g.point s.x)
        rw [residual_widen]
        rcases hx with ⟨h1, rfl⟩ | ⟨h1, rfl⟩
        · exact .inl ⟨h1, g.point_clip _⟩
        · exact .inr ⟨h1, rfl⟩)
    rw [opening_widen, residual_widen] at this
    exact this
  | @infeasible s f e hk hf hn hc he =>
    rw [finish_widen g ht, Widening.point_diff, Widening.point_clip]
    have := Outer.infeasible (q := g.qp q) (E0 := E0) (s := s.widen g) (f := f.widen g) (e := e)
      hk (solved_widen g ht hf) hn hc (by
        have := (flag_widen g _ _).2 he
        rw [Widening.point_diff, Widening.point_clip] at this
        exact this)
    rw [opening_widen] at this
    exact this
  | @step s f r hk hf hn hc hr ih =>
    have := Outer.step (q := g.qp q) (E0 := E0) (s := s.widen g) (f := f.widen g) (r := g.result r)
      hk (solved_widen g ht hf) hn (by
        intro hc' e
        show ¬Flag (g.qp q) o ((g.point f.x).clip.diff (g.point s.x)) e
        rw [← Widening.point_clip, ← Widening.point_diff, flag_widen g]
        exact hc hc' e)
      (by
        have e0 : (f.widen g).x.clip = g.point f.x.clip := (g.point_clip f.x).symm
        have e1 : ((f.widen g).x.clip.diff (s.widen g).x).length = (f.x.clip.diff s.x).length := by
          rw [← Widening.point_length g (f.x.clip.diff s.x), Widening.point_diff, e0]; rfl
        rw [e1, nextTol_widen, e0]
        exact ih)
    rw [opening_widen] at this
    exact this

/-- The method does not see unknowns and equations that play no role. -/
theorem run_widen (hz : 0 < nz) (hz' : 0 < nz') (hst : o.stallTol < 1) {x : PD nz nl nv} {sub : ℝ}
    {r : Result nz nl nv} (h : Run q o x sub r) : Run (g.qp q) o (g.point x) sub (g.result r) := by
  have ht : tolerance (g.qp q) o = tolerance q o := by
    rw [tolerance, g.forcing, tolerance]
  cases h with
  | throws h => exact .throws h
  | @starts r h hr =>
    have := (outer_widen g ht hr).longStep (t := PD.length (PD.ones : PD nz' nl' nv))
      (lt_of_lt_of_le hst (one_le_length_ones hz)) (lt_of_lt_of_le hst (one_le_length_ones hz'))
    refine Run.starts h (r := g.result r) ?_
    rw [residual_widen]
    exact this

end Method
end Fbstab

