import Verif.Spec.Method
import Verif.Proofs.NewtonRun
import Verif.Proofs.Certificates

/-!
# Runs of the functional version follow the method
-/

namespace Fbstab
open Matrix

namespace Method
variable {nz nl nv : Nat} {q : QP nz nl nv} {o : Params ℝ}

/-- A point of the model without its margin. -/
def pd (x : Point ℝ nz nl nv) : PD nz nl nv := ⟨x.z.fn, x.l.fn, x.v.fn⟩

/-- The norms cached in a residual object. -/
def partsOf (r : Resid ℝ nz nl nv) : Parts := ⟨r.znorm, r.lnorm, r.vnorm⟩

theorem partsOf_norm (r : Resid ℝ nz nl nv) : Core.Resid.norm r = (partsOf r).norm := by
  simp only [Core.Resid.norm, Parts.norm, partsOf, scalar_sqrt, sq]

theorem merit_eq (r : Resid ℝ nz nl nv) : Core.Resid.merit r = (partsOf r).norm ^ 2 / 2 := by
  rw [Core.Resid.merit, partsOf_norm]; norm_num; ring

theorem phi_eq (alpha a b : ℝ) : pfb a b alpha = phi alpha a b := by
  simp only [pfb, phi, scalar_sqrt, cmax_eq_max, sq]

theorem phiSlopes_eq (alpha a b : ℝ) : pfbGradient alpha a b = phiSlopes alpha a b := by
  have h2 : (2.0 : ℝ) = 2 := by norm_num
  simp only [pfbGradient, phiSlopes, scalar_sqrt, sq, h2]

section
variable {E : Core.Env ℝ nz nl nv}

theorem residual_eq (I : q.Implements E.ops) {x : Point ℝ nz nl nv} (hm : Core.Marg q x) :
    partsOf (E.penRes x) = residual q E.opts (pd x) := by
  have hy : ∀ i, x.y i = q.b i - (q.A *ᵥ x.z.fn) i := fun i => congrFun hm i
  refine Parts.ext ?_ ?_ ?_
  · show Vec.norm _ = _
    rw [Vec.norm_eq_euclid, I.gradLagrangian]; rfl
  · show Vec.norm _ = _
    rw [Vec.norm_eq_euclid, I.eqDefect]; rfl
  · show Vec.norm _ = _
    rw [Vec.norm_eq_euclid]
    show euclid _ = euclid _
    congr 1
    funext i
    simp only [penalizedMin, Vec.fn_ofFn, cmin_eq_min, cmax_eq_max, hy]
    rfl

theorem subResidual_eq (I : q.Implements E.ops) {x xbar : Point ℝ nz nl nv} (hm : Core.Marg q x) :
    partsOf (E.innerRes x xbar E.opts.sigma0) = subResidual q E.opts (pd xbar) (pd x) := by
  have hy : ∀ i, x.y i = q.b i - (q.A *ᵥ x.z.fn) i := fun i => congrFun hm i
  obtain ⟨i1, i2, i3⟩ := Core.innerRes_fn (E := E) I x xbar E.opts.sigma0
  refine Parts.ext ?_ ?_ ?_
  · show Vec.norm (E.innerRes x xbar E.opts.sigma0).z = _
    rw [Vec.norm_eq_euclid, i1]; rfl
  · show Vec.norm (E.innerRes x xbar E.opts.sigma0).l = _
    rw [Vec.norm_eq_euclid, i2]; rfl
  · show Vec.norm (E.innerRes x xbar E.opts.sigma0).v = _
    rw [Vec.norm_eq_euclid]
    show euclid _ = euclid _
    congr 1
    funext i
    rw [Vec.fn_apply, i3, hy, phi_eq]
    rfl

theorem merit_sub (I : q.Implements E.ops) {x xbar : Point ℝ nz nl nv} (hm : Core.Marg q x) :
    Core.Resid.merit (E.innerRes x xbar E.opts.sigma0) = merit q E.opts (pd xbar) (pd x) := by
  rw [merit_eq, subResidual_eq I hm]; rfl

theorem pd_axpy (t : ℝ) (d x : Point ℝ nz nl nv) : pd (E.axpy t d x) = (pd x).along t (pd d) := by
  simp only [pd, Core.Env.axpy, PD.along, Vec.fn_add, Vec.fn_smul]

theorem pd_project (x : Point ℝ nz nl nv) : pd (Core.projectDuals x) = (pd x).clip := by
  refine PD.ext rfl rfl ?_
  funext i
  simp [pd, Core.projectDuals, PD.clip, Vec.cwiseMax]

theorem pd_diff (x x' : Point ℝ nz nl nv) : pd (E.axpy (-1) x' x) = (pd x).diff (pd x') := by
  rw [pd_axpy]
  refine PD.ext ?_ ?_ ?_ <;> simp only [PD.along, PD.diff, neg_one_smul, sub_eq_add_neg]

theorem normPt_eq (x : Point ℝ nz nl nv) : Core.normPt x = (pd x).length := by
  rw [Core.normPt, norm3_eq]
  rfl

/-- The newest merits. -/
theorem largestRecent_eq (ms : List ℝ) (h : ∀ m ∈ ms, 0 ≤ m) :
    largestRecent ms = (ms.take 5).foldr max 0 := by
  unfold largestRecent
  simp only [cmax_eq_max]
  match ms with
  | [] => simp
  | [a] => simp
  | [a, b] => simp [max_assoc]
  | [a, b, c] => simp [max_assoc]
  | [a, b, c, d] => simp [max_assoc]
  | a :: b :: c :: d :: e :: l =>
    have : max e 0 = e := max_eq_left (h e (by simp))
    simp [max_assoc, this]

theorem reference_eq (o : Params ℝ) (ms : List ℝ) (h : ∀ m ∈ ms, 0 ≤ m) :
    meritReference o ms = reference o ms := by
  unfold meritReference reference
  rw [largestRecent_eq ms h]
  cases ms <;> rfl

theorem merit_nonneg (c x : PD nz nl nv) : 0 ≤ merit q o c x :=
  div_nonneg (sq_nonneg _) (by norm_num)

/-- The line search, with the residual that is left in the object. -/
theorem lineSearch_full (m0 cm c : ℝ) (x xbar dx : Point ℝ nz nl nv) (n : Nat) :
    ∀ j0, ∃ j, j0 ≤ j ∧ j ≤ j0 + n ∧
      (Core.lineSearch E E.opts.sigma0 m0 cm x xbar dx n (E.opts.beta ^ j0)).1 = E.opts.beta ^ j ∧
      (j < j0 + n → Core.Resid.merit (E.innerRes (E.axpy (E.opts.beta ^ j) dx x) xbar E.opts.sigma0) ≤
        m0 - 2.0 * E.opts.beta ^ j * E.opts.eta * cm) ∧
      (∀ i, j0 ≤ i → i < j →
        ¬Core.Resid.merit (E.innerRes (E.axpy (E.opts.beta ^ i) dx x) xbar E.opts.sigma0) ≤
          m0 - 2.0 * E.opts.beta ^ i * E.opts.eta * cm) ∧
      ∀ rest ri, Core.render E.opts c ri
          ((Core.lineSearch E E.opts.sigma0 m0 cm x xbar dx n (E.opts.beta ^ j0)).2 ++ rest) =
        Core.render E.opts c (if n = 0 then ri else
          E.innerRes (E.axpy (E.opts.beta ^ min j (j0 + n - 1)) dx x) xbar E.opts.sigma0) rest := by
  induction n with
  | zero =>
    exact fun j0 => ⟨j0, le_rfl, le_rfl, rfl, fun h => absurd h (lt_irrefl _),
      fun i h1 h2 => absurd h2 (by omega), fun rest ri => rfl⟩
  | succ n ih =>
    intro j0
    rw [Core.lineSearch]
    dsimp only
    split
    · rename_i h
      refine ⟨j0, le_rfl, by omega, rfl, fun _ => h, fun i h1 h2 => absurd h2 (by omega), fun rest ri => ?_⟩
      rw [if_neg (by omega), show min j0 (j0 + (n + 1) - 1) = j0 by omega]
      rfl
    · rename_i h
      obtain ⟨j, h1, h2, h3, h4, h5, h6⟩ := ih (j0 + 1)
      rw [pow_succ] at h3 h6
      refine ⟨j, by omega, by omega, h3, fun hj => h4 (by omega), fun i hi hi' => ?_, fun rest ri => ?_⟩
      · rcases Nat.lt_or_ge j0 i with hlt | hge
        · exact h5 i hlt hi'
        · rw [show i = j0 by omega]; exact h
      · rw [if_neg (by omega)]
        simp only [List.cons_append, Core.render]
        rw [h6]
        by_cases hn : n = 0
        · subst hn
          rw [if_pos rfl, show min j (j0 + (0 + 1) - 1) = j0 by omega]
        · rw [if_neg hn, show j0 + 1 + n - 1 = j0 + (n + 1) - 1 by omega]

/-- One Newton iteration. -/
theorem newtonStep_full (N : Core.NewtonEnv E q) {x xbar : Point ℝ nz nl nv} {g}
    (hg : E.factor x xbar E.opts.sigma0 = .ok (some g)) (hm : Core.Marg q x) {buf : Vec ℝ 5}
    {ms : List ℝ} (hb : Core.Holds buf ms) (hms : ∀ m ∈ ms, 0 ≤ m) (c : ℝ) :
    ∃ d j, IsDirection q E.opts (pd xbar) (pd x) d ∧
      Reductions q E.opts (pd xbar) (pd x) d (merit q E.opts (pd xbar) (pd x) :: ms) j ∧
      pd (Core.newtonStep E E.opts.sigma0 xbar g x (E.innerRes x xbar E.opts.sigma0) buf).1 =
        (pd x).along (E.opts.beta ^ j) d ∧
      Core.Marg q (Core.newtonStep E E.opts.sigma0 xbar g x (E.innerRes x xbar E.opts.sigma0) buf).1 ∧
      (Core.newtonStep E E.opts.sigma0 xbar g x (E.innerRes x xbar E.opts.sigma0) buf).2.1 =
        E.opts.beta ^ j ∧
      Core.Holds (Core.newtonStep E E.opts.sigma0 xbar g x (E.innerRes x xbar E.opts.sigma0) buf).2.2.1
        (merit q E.opts (pd xbar) (pd x) :: ms) ∧
      ∃ ri', Core.Resid.norm ri' = (subResidual q E.opts (pd xbar)
          ((pd x).along (E.opts.beta ^ min j (E.opts.maxLinesearchIters.toNat - 1)) d)).norm ∧
        ∀ rest ri, Core.render E.opts c ri ((Core.newtonStep E E.opts.sigma0 xbar g x
          (E.innerRes x xbar E.opts.sigma0) buf).2.2.2 ++ rest) = Core.render E.opts c ri' rest := by
  obtain ⟨g', hg', hn⟩ := N.factor x xbar
  have : g = g' := by rw [hg] at hg'; injection hg' with h; injection h
  subst this
  have hL := N.inRange.maxLinesearchIters
  have hcm : Core.Resid.merit (Core.Resid.negate (E.innerRes x xbar E.opts.sigma0)) =
      merit q E.opts (pd xbar) (pd x) := by
    show Core.Resid.merit (E.innerRes x xbar E.opts.sigma0) = _
    exact merit_sub N.ops hm
  unfold Core.newtonStep
  dsimp only
  rw [hcm]
  set dx := g (Core.Resid.negate (E.innerRes x xbar E.opts.sigma0)) with hdx
  set cm := merit q E.opts (pd xbar) (pd x) with hcmdef
  have hdm : Core.Marg q dx := N.margin hg _
  have hms' : ∀ m ∈ cm :: ms, 0 ≤ m := by
    intro m h
    rcases List.mem_cons.1 h with rfl | h
    · exact merit_nonneg _ _
    · exact hms m h
  have hm0 : Core.mZero E (Alg.insertMerit cm buf) cm = reference E.opts (cm :: ms) := by
    rw [← reference_eq _ _ hms']
    unfold Core.mZero meritReference
    rw [(hb.insert cm).max]
    rfl
  rw [hm0]
  obtain ⟨j, -, h2, h3, h4, h5, h6⟩ := lineSearch_full (E := E) (reference E.opts (cm :: ms)) cm c x xbar dx
    E.opts.maxLinesearchIters.toNat 0
  rw [pow_zero] at h3 h6
  simp only [if_neg (show ¬E.opts.maxLinesearchIters.toNat = 0 by omega)] at h6
  have two : (2.0 : ℝ) = 2 := by norm_num
  have htest : ∀ t, Core.Resid.merit (E.innerRes (E.axpy t dx x) xbar E.opts.sigma0) ≤
      reference E.opts (cm :: ms) - 2.0 * t * E.opts.eta * cm ↔
      Passes q E.opts (pd xbar) (pd x) (pd dx) (cm :: ms) t := by
    intro t
    rw [merit_sub N.ops (hm.axpy N.ops hdm t), pd_axpy, two]
    rfl
  obtain ⟨i1, i2, i3⟩ := Core.innerRes_fn (E := E) N.ops x xbar E.opts.sigma0
  have hz : ∀ {n : Nat} (w : Vec ℝ n), (Vec.ofFn fun i => w i * (-1)).fn = -w.fn := by
    intro n w; ext i; simp
  have hy : ∀ i, x.y i = q.b i - (q.A *ᵥ x.z.fn) i := fun i => congrFun hm i
  refine ⟨pd dx, j, ?_, ⟨by omega, fun i hi => ?_, fun hj => ?_⟩, ?_, ?_, h3, hb.insert cm, _, ?_, h6⟩
  · have := hn (Core.Resid.negate (E.innerRes x xbar E.opts.sigma0))
    have e1 : (Core.Resid.negate (E.innerRes x xbar E.opts.sigma0)).z.fn =
      -(q.lagrangeGrad x.z.fn x.l.fn x.v.fn + E.opts.sigma0 • (x.z.fn - xbar.z.fn)) := by
      rw [← i1]; exact hz _
    have e2 : (Core.Resid.negate (E.innerRes x xbar E.opts.sigma0)).l.fn =
      -(q.h - q.G *ᵥ x.z.fn + E.opts.sigma0 • (x.l.fn - xbar.l.fn)) := by
      rw [← i2]; exact hz _
    have e3 : (Core.Resid.negate (E.innerRes x xbar E.opts.sigma0)).v.fn =
      fun i => -phi E.opts.alpha (pairs q E.opts (pd xbar) (pd x) i) ((pd x).v i) := by
      funext i
      rw [pairs, ← phi_eq]
      show _ = -pfb (q.b i - (q.A *ᵥ x.z.fn) i + E.opts.sigma0 * (x.v i - xbar.v i)) (x.v i) E.opts.alpha
      rw [← hy, ← i3]; exact congrFun (hz _) i
    rw [e1, e2, e3] at this
    have e4 : ∀ i, slopes E.opts.alpha E.opts.sigma0 x xbar i =
        phiSlopes E.opts.alpha (pairs q E.opts (pd xbar) (pd x) i) ((pd x).v i) := by
      intro i
      rw [slopes, phiSlopes_eq, hy]
      rfl
    simp only [e4] at this
    exact this
  · rw [← htest]; exact h5 i (Nat.zero_le _) hi
  · rw [← htest]; exact h4 (by omega)
  · rw [pd_axpy, h3]
  · exact hm.axpy N.ops hdm _
  · rw [partsOf_norm, subResidual_eq N.ops (hm.axpy N.ops hdm _), pd_axpy, Nat.zero_add]

/-- The Newton iterations of a subproblem. -/
theorem innerLoop_full (N : Core.NewtonEnv E q) (tol c : ℝ) {xbar : Point ℝ nz nl nv}
    (hxb : Core.Marg q xbar) (fuel : Nat) :
    ∀ (i : Nat) (t Eo : ℝ) (x : Point ℝ nz nl nv) (newton : Nat) (buf : Vec ℝ 5) (ms : List ℝ)
      (rk : Resid ℝ nz nl nv), i + (fuel + 1) = E.opts.maxInnerIters.toNat → Core.Marg q x →
      Core.Holds buf ms → (∀ m ∈ ms, 0 ≤ m) →
      ∃ out f ri', (Core.innerLoop E tol E.opts.sigma0 (Core.Resid.norm (E.penRes xbar)) xbar (fuel + 1) i t
          Eo x newton buf rk).2 = .ok out ∧
        Inner q E.opts (pd xbar) tol i t newton ms (pd x) f ∧ f.newtons = out.newton ∧
        f.x = pd out.x ∧ Core.Marg q out.x ∧ out.Eo = f.seen.norm ∧ partsOf out.rk = f.seen ∧
        Core.Resid.norm ri' = f.sub ∧
        ∀ rest ri, Core.render E.opts c ri ((Core.innerLoop E tol E.opts.sigma0
          (Core.Resid.norm (E.penRes xbar)) xbar (fuel + 1) i t Eo x newton buf rk).1 ++ rest) =
          f.log.filter (visible E.opts.displayLevel) ++ Core.render E.opts c ri' rest := by
  induction fuel with
  | zero =>
    intro i t Eo x newton buf ms rk hi hm hb hms
    have hri := subResidual_eq (E := E) (xbar := xbar) N.ops hm
    have hrk := residual_eq (E := E) N.ops hm
    have hEi : Core.Resid.norm (E.innerRes x xbar E.opts.sigma0) =
        (subResidual q E.opts (pd xbar) (pd x)).norm := by rw [partsOf_norm, hri]
    have hEo : Core.Resid.norm (E.penRes x) = (residual q E.opts (pd x)).norm := by
      rw [partsOf_norm, hrk]
    have hEk : Core.Resid.norm (E.penRes xbar) = (residual q E.opts (pd xbar)).norm := by
      rw [partsOf_norm, residual_eq N.ops hxb]
    have hl : Msg.detailedLine i t (E.innerRes x xbar E.opts.sigma0).znorm
        (E.innerRes x xbar E.opts.sigma0).lnorm (E.innerRes x xbar E.opts.sigma0).vnorm =
        line q E.opts (pd xbar) i t (pd x) := by
      rw [line, ← hri]; rfl
    have hacc : ((Core.Resid.norm (E.innerRes x xbar E.opts.sigma0) ≤ tol ∧
        Core.Resid.norm (E.penRes x) < Core.Resid.norm (E.penRes xbar)) ∨
        Core.Resid.norm (E.innerRes x xbar E.opts.sigma0) ≤ E.opts.innerTolMin) ↔
        Acceptable q E.opts (pd xbar) tol (pd x) := by
      rw [hEi, hEo, hEk]; rfl
    rw [Core.innerLoop]
    dsimp only
    by_cases ha : Acceptable q E.opts (pd xbar) tol (pd x)
    · rw [if_pos (hacc.2 ha)]
      refine ⟨_, _, E.innerRes x xbar E.opts.sigma0, rfl, .accept (by omega) ha, rfl, rfl, hm, hEo, hrk, hEi,
        fun rest ri => ?_⟩
      simp only [List.cons_append, List.nil_append, Core.render, hl, hEi]
      cases E.opts.displayLevel <;> simp [visible, line]
    · rw [if_neg (fun h => ha (hacc.1 h))]
      by_cases hn : E.opts.maxNewtonIters ≤ (newton : Int)
      · rw [if_pos hn]
        refine ⟨_, _, E.innerRes x xbar E.opts.sigma0, rfl, .newtonLimit (by omega) ha hn, rfl, rfl, hm, hEo,
          hrk, hEi, fun rest ri => ?_⟩
        simp only [List.cons_append, List.nil_append, Core.render, hl]
        cases E.opts.displayLevel <;> simp [visible, line]
      · rw [if_neg hn]
        obtain ⟨g, hg, -⟩ := N.factor x xbar
        obtain ⟨d, j, h1, h2, h3, h4, h5, h6, ri', h7, h8⟩ := newtonStep_full N hg hm hb hms c
        rw [hg]
        dsimp only
        simp only [Core.innerLoop]
        refine ⟨_, _, ri', rfl, .innerLimit (by omega) ha (by omega) h1 h2, rfl, h3.symm, h4, hEo, hrk, h7,
          fun rest ri => ?_⟩
        simp only [List.cons_append, List.append_assoc, List.nil_append, Core.render, hl, h8]
        cases E.opts.displayLevel <;> simp [visible, line]
  | succ fuel ih =>
    intro i t Eo x newton buf ms rk hi hm hb hms
    have hri := subResidual_eq (E := E) (xbar := xbar) N.ops hm
    have hrk := residual_eq (E := E) N.ops hm
    have hEi : Core.Resid.norm (E.innerRes x xbar E.opts.sigma0) =
        (subResidual q E.opts (pd xbar) (pd x)).norm := by rw [partsOf_norm, hri]
    have hEo : Core.Resid.norm (E.penRes x) = (residual q E.opts (pd x)).norm := by
      rw [partsOf_norm, hrk]
    have hEk : Core.Resid.norm (E.penRes xbar) = (residual q E.opts (pd xbar)).norm := by
      rw [partsOf_norm, residual_eq N.ops hxb]
    have hl : Msg.detailedLine i t (E.innerRes x xbar E.opts.sigma0).znorm
        (E.innerRes x xbar E.opts.sigma0).lnorm (E.innerRes x xbar E.opts.sigma0).vnorm =
        line q E.opts (pd xbar) i t (pd x) := by
      rw [line, ← hri]; rfl
    have hacc : ((Core.Resid.norm (E.innerRes x xbar E.opts.sigma0) ≤ tol ∧
        Core.Resid.norm (E.penRes x) < Core.Resid.norm (E.penRes xbar)) ∨
        Core.Resid.norm (E.innerRes x xbar E.opts.sigma0) ≤ E.opts.innerTolMin) ↔
        Acceptable q E.opts (pd xbar) tol (pd x) := by
      rw [hEi, hEo, hEk]; rfl
    rw [Core.innerLoop]
    dsimp only
    by_cases ha : Acceptable q E.opts (pd xbar) tol (pd x)
    · rw [if_pos (hacc.2 ha)]
      refine ⟨_, _, E.innerRes x xbar E.opts.sigma0, rfl, .accept (by omega) ha, rfl, rfl, hm, hEo, hrk, hEi,
        fun rest ri => ?_⟩
      simp only [List.cons_append, List.nil_append, Core.render, hl, hEi]
      cases E.opts.displayLevel <;> simp [visible, line]
    · rw [if_neg (fun h => ha (hacc.1 h))]
      by_cases hn : E.opts.maxNewtonIters ≤ (newton : Int)
      · rw [if_pos hn]
        refine ⟨_, _, E.innerRes x xbar E.opts.sigma0, rfl, .newtonLimit (by omega) ha hn, rfl, rfl, hm, hEo,
          hrk, hEi, fun rest ri => ?_⟩
        simp only [List.cons_append, List.nil_append, Core.render, hl]
        cases E.opts.displayLevel <;> simp [visible, line]
      · rw [if_neg hn]
        obtain ⟨g, hg, -⟩ := N.factor x xbar
        obtain ⟨d, j, h1, h2, h3, h4, h5, h6, ri', h7, h8⟩ := newtonStep_full N hg hm hb hms c
        have hms' : ∀ m ∈ merit q E.opts (pd xbar) (pd x) :: ms, 0 ≤ m := by
          intro m h
          rcases List.mem_cons.1 h with rfl | h
          · exact merit_nonneg _ _
          · exact hms m h
        obtain ⟨out, f, ri'', k1, k2, k3, k4, k5, k6, k7, k8, k9⟩ := ih (i + 1)
          (Core.newtonStep E E.opts.sigma0 xbar g x (E.innerRes x xbar E.opts.sigma0) buf).2.1
          (Core.Resid.norm (E.penRes x)) _ (newton + 1) _ _ (E.penRes x) (by omega) h4 h6 hms'
        rw [hg]
        dsimp only
        rw [h3, h5] at k2
        refine ⟨out, _, ri'', k1, .step (by omega) ha (by omega) h1 h2 k2, k3, k4, k5, k6, k7, k8,
          fun rest ri => ?_⟩
        simp only [List.cons_append, List.append_assoc, Core.render, hl, h8, k9]
        cases E.opts.displayLevel <;> simp [visible, line]

/-- The state of the model at a proximal iterate. -/
structure Match (E : Core.Env ℝ nz nl nv) (q : QP nz nl nv) (s : Core.Outer ℝ nz nl nv)
    (ri : Resid ℝ nz nl nv) (s' : Iterate nz nl nv) : Prop where
  k : s'.k = s.prox
  newtons : s'.newtons = s.newton
  x : s'.x = pd s.xk
  step : s'.step = Core.normPt s.dx
  tol : s'.tol = s.innerTol
  seen : s'.seen = partsOf s.rk
  sub : s'.sub = Core.Resid.norm ri
  marg : Core.Marg q s.xk

theorem comboTol_eq (I : q.Implements E.ops) : E.comboTol = tolerance q E.opts := by
  rw [Core.Env.comboTol, stoppingTol, I.forcingNorm]; rfl

/-- The check of the last step. -/
theorem flag_eq (N : Core.NewtonEnv E q) (x : Point ℝ nz nl nv) (ws : FeasWs ℝ nz nl nv) (e : ExitFlag) :
    Flag q E.opts (pd x) e ↔
      e ≠ .success ∧ Core.flagOf (checkFeasibility E.ops x E.opts.infeasTol ws).1 = e := by
  obtain ⟨h1, h2⟩ := checkFeasibility_real N.ops x E.opts.infeasTol
    (le_trans (by norm_num) N.inRange.infeasTol) ws
  have h1' := not_congr h1
  have h2' := not_congr h2
  constructor
  · intro h
    cases h with
    | primal h h' =>
      have a := h1.2 h; have b := h2'.2 h'
      revert a b
      cases (checkFeasibility E.ops x E.opts.infeasTol ws).1 <;> simp [Core.flagOf]
    | dual h h' =>
      have a := h1'.2 h; have b := h2.2 h'
      revert a b
      cases (checkFeasibility E.ops x E.opts.infeasTol ws).1 <;> simp [Core.flagOf]
    | both h h' =>
      have a := h1.2 h; have b := h2.2 h'
      revert a b
      cases (checkFeasibility E.ops x E.opts.infeasTol ws).1 <;> simp [Core.flagOf]
  · rintro ⟨h, rfl⟩
    revert h
    cases hc : (checkFeasibility E.ops x E.opts.infeasTol ws).1 <;> simp only [hc] at h1 h2 <;>
      simp [Core.flagOf] at h1 h2 ⊢
    all_goals first | exact .primal h1 h2 | exact .dual h1 h2 | exact .both h1 h2

/-- What is shown of a line about a proximal iterate. -/
theorem render_outer (I : q.Implements E.ops) {s : Core.Outer ℝ nz nl nv} {ri : Resid ℝ nz nl nv}
    {s' : Iterate nz nl nv} (hM : Match E q s ri s') (c : ℝ) (rest : List (Core.Event ℝ nz nl nv)) :
    Core.render E.opts c ri (.outer s.prox s.newton (E.penRes s.xk) s.innerTol :: rest) =
      [iterLine q E.opts s'].filter (visible E.opts.displayLevel) ++ Core.render E.opts c ri rest := by
  have hl : Msg.iterLine s.prox s.newton (E.penRes s.xk).znorm (E.penRes s.xk).lnorm
      (E.penRes s.xk).vnorm (Core.Resid.norm ri) s.innerTol = iterLine q E.opts s' := by
    rw [iterLine, hM.x, ← residual_eq I hM.marg, hM.k, hM.newtons, hM.sub, hM.tol]; rfl
  simp only [Core.render, hl]
  cases E.opts.displayLevel <;> simp [visible, iterLine]

theorem render_opening (I : q.Implements E.ops) {s : Core.Outer ℝ nz nl nv} {ri : Resid ℝ nz nl nv}
    {s' : Iterate nz nl nv} (hM : Match E q s ri s') (c : ℝ) (rest : List (Core.Event ℝ nz nl nv)) :
    Core.render E.opts c ri (.outerDetailed s.prox s.newton (E.penRes s.xk) ::
        .outer s.prox s.newton (E.penRes s.xk) s.innerTol :: rest) =
      (opening q E.opts s').filter (visible E.opts.displayLevel) ++ Core.render E.opts c ri rest := by
  rw [Core.render, render_outer I hM, hM.k.symm, hM.newtons.symm, partsOf_norm, residual_eq I hM.marg,
    ← hM.x, opening]
  cases E.opts.displayLevel <;> simp [visible, iterLine]

theorem render_final (I : q.Implements E.ops) (E0 : ℝ) (e : ExitFlag) (p n : Nat) (rk ri : Resid ℝ nz nl nv)
    (parts : Parts) (hp : partsOf rk = parts) :
    Core.render E.opts E.comboTol ri [.final e p n rk] =
      (summary E.opts ⟨e, parts.norm, n, p, E0⟩ parts.z parts.l parts.v (tolerance q E.opts)).filter
        (visible E.opts.displayLevel) := by
  subst hp
  simp only [Core.render, comboTol_eq I]
  cases E.opts.displayLevel <;> simp [visible, summary, Display.toNat, partsOf]

/-- What `Solve` does, and what is written, if it does as a result says. -/
def Agrees (E : Core.Env ℝ nz nl nv) (q : QP nz nl nv) (ri : Resid ℝ nz nl nv) (r : Result nz nl nv)
    (p : List (Core.Event ℝ nz nl nv) × Except Err (Core.Final ℝ nz nl nv)) : Prop :=
  Core.render E.opts E.comboTol ri p.1 = r.log.filter (visible E.opts.displayLevel) ∧
  match r.value with
  | some (out, x) => ∃ fin, p.2 = .ok fin ∧ fin.out = out ∧ pd fin.x = x ∧ Core.Marg q fin.x
  | none => p.2 = .error toleranceError

theorem Agrees.finish (I : q.Implements E.ops) {ri ri' : Resid ℝ nz nl nv} {E0 : ℝ} {e : ExitFlag} {p n : Nat}
    {rk : Resid ℝ nz nl nv} {x : Point ℝ nz nl nv} (hm : Core.Marg q x) (before : List (Msg ℝ))
    (es : List (Core.Event ℝ nz nl nv)) (parts : Parts) (hp : partsOf rk = parts)
    (he : Core.render E.opts E.comboTol ri (es ++ [.final e p n rk]) =
      before.filter (visible E.opts.displayLevel) ++
        Core.render E.opts E.comboTol ri' [.final e p n rk]) :
    Agrees E q ri (Method.finish q E.opts before ⟨e, parts.norm, n, p, E0⟩ parts (pd x))
      (es ++ [.final e p n rk], .ok (Core.mkFinal E0 e p n rk x)) := by
  refine ⟨?_, _, rfl, ?_, rfl, hm⟩
  · rw [he, render_final I E0 e p n rk ri' parts hp, Method.finish, List.filter_append]
  · rw [Core.mkFinal, partsOf_norm, hp]

/-- The proximal iteration. -/
theorem proxLoop_full (N : Core.NewtonEnv E q) (E0 : ℝ) (fuel : Nat) :
    ∀ (s : Core.Outer ℝ nz nl nv) (ri : Resid ℝ nz nl nv) (s' : Iterate nz nl nv), Match E q s ri s' →
      s.prox + fuel = E.opts.maxProxIters.toNat →
      ∃ r, Outer q E.opts E0 s' r ∧ Agrees E q ri r (Core.proxLoop E E0 fuel s) := by
  have hi := N.inRange
  have hpx := hi.maxProxIters
  have hin := hi.maxInnerIters
  induction fuel with
  | zero =>
    intro s ri s' hM hf
    refine ⟨_, .proxLimit (by rw [hM.k]; omega), ?_⟩
    rw [hM.x, hM.k, hM.newtons, hM.seen]
    exact Agrees.finish N.ops hM.marg [] [] _ rfl rfl
  | succ fuel ih =>
    intro s ri s' hM hf
    have hk : (s'.k : Int) < E.opts.maxProxIters := by rw [hM.k]; omega
    have hrk : partsOf (E.penRes s.xk) = residual q E.opts s'.x := by rw [hM.x]; exact residual_eq N.ops hM.marg
    have hEk : Core.Resid.norm (E.penRes s.xk) = (residual q E.opts s'.x).norm := by rw [partsOf_norm, hrk]
    have hst : (Core.Resid.norm (E.penRes s.xk) ≤ E.comboTol ∨ Core.normPt s.dx ≤ E.opts.stallTol) ↔
        Stops q E.opts s' := by
      rw [hEk, comboTol_eq N.ops, ← hM.step]; rfl
    rw [Core.proxLoop]
    dsimp only
    by_cases hs : Stops q E.opts s'
    · rw [if_pos (hst.2 hs)]
      refine ⟨_, .success hk hs, ?_⟩
      rw [hM.k, hM.newtons]
      have := Agrees.finish (E0 := E0) (e := .success) (p := s.prox) (n := s.newton) N.ops hM.marg
        [iterLine q E.opts s'] [.outer s.prox s.newton (E.penRes s.xk) s.innerTol] _ hrk
        (render_outer N.ops hM _ _)
      rw [← hM.x] at this
      exact this
    · rw [if_neg (fun h => hs (hst.1 h))]
      rcases lt_or_ge (residual q E.opts s'.x).norm E.opts.innerTolMin with hb | hb
      · have : saturate (s.innerTol * E.opts.delta) E.opts.innerTolMin (Core.Resid.norm (E.penRes s.xk)) =
            .error toleranceError := by
          rw [saturate, hEk, if_pos hb]; rfl
        rw [this]
        refine ⟨_, .throws hk hs hb, ?_, rfl⟩
        have := render_opening N.ops hM E.comboTol []
        rw [this]
        simp [Core.render]
      · have ht : saturate (s.innerTol * E.opts.delta) E.opts.innerTolMin
            (Core.Resid.norm (E.penRes s.xk)) = .ok (nextTol q E.opts s') := by
          rw [hEk, saturate_real hb, nextTol, hM.tol]
        rw [ht]
        dsimp only
        obtain ⟨n, hn⟩ : ∃ n, E.opts.maxInnerIters.toNat = n + 1 :=
          ⟨E.opts.maxInnerIters.toNat - 1, by omega⟩
        obtain ⟨out, f, ri', k1, k2, k3, k4, k5, k6, k7, k8, k9⟩ := innerLoop_full N (nextTol q E.opts s')
          E.comboTol hM.marg n 0 1 0 s.xk s.newton (Vec.const 0) [] (E.penRes s.xk) (by omega) hM.marg
          Core.Holds.nil (by simp)
        rw [← hn] at k1 k9
        have hsub : Core.subproblem E (nextTol q E.opts s') (Core.Resid.norm (E.penRes s.xk)) s.xk s.newton
            (E.penRes s.xk) = ((Core.innerLoop E (nextTol q E.opts s') E.opts.sigma0
              (Core.Resid.norm (E.penRes s.xk)) s.xk E.opts.maxInnerIters.toNat 0 1 0 s.xk s.newton
              (Vec.const 0) (E.penRes s.xk)).1, .ok { out with x := Core.projectDuals out.x }) := by
          rw [Core.subproblem, k1]; rfl
        rw [hsub]
        dsimp only
        generalize (Core.innerLoop E (nextTol q E.opts s') E.opts.sigma0
              (Core.Resid.norm (E.penRes s.xk)) s.xk E.opts.maxInnerIters.toNat 0 1 0 s.xk s.newton
              (Vec.const 0) (E.penRes s.xk)).1 = es at k9
        have hmp : Core.Marg q (Core.projectDuals out.x) := k5
        have hfx : f.x.clip = pd (Core.projectDuals out.x) := by rw [pd_project, k4]
        have hsol : Solved q E.opts s' f := ⟨hs, hb, by rw [hM.newtons, hM.x]; exact k2⟩
        have hrender : ∀ rest, Core.render E.opts E.comboTol ri ([.outerDetailed s.prox s.newton (E.penRes s.xk),
            .outer s.prox s.newton (E.penRes s.xk) s.innerTol] ++ es ++ rest) =
            (opening q E.opts s' ++ f.log).filter (visible E.opts.displayLevel) ++
              Core.render E.opts E.comboTol ri' rest := by
          intro rest
          have := render_opening N.ops hM E.comboTol (es ++ rest)
          rw [List.append_assoc]
          refine this.trans ?_
          rw [k9, List.filter_append, List.append_assoc]
        unfold Core.afterInner
        dsimp only
        by_cases hnl : E.opts.maxNewtonIters ≤ (out.newton : Int)
        · rw [if_pos hnl]
          dsimp only
          have hEo : out.Eo < Core.Resid.norm (E.penRes s.xk) ↔
              f.seen.norm < (residual q E.opts s'.x).norm := by rw [k6, hEk]
          set x := if out.Eo < Core.Resid.norm (E.penRes s.xk) then Core.projectDuals out.x else s.xk with hx
          have hmx : Core.Marg q x := by rw [hx]; split; exacts [hmp, hM.marg]
          refine ⟨_, .newtonLimit (x := pd x) hk hsol (by rw [k3]; exact hnl) ?_, ?_⟩
          · by_cases h : out.Eo < Core.Resid.norm (E.penRes s.xk)
            · exact .inl ⟨hEo.1 h, by rw [hx, if_pos h, hfx]⟩
            · exact .inr ⟨fun h' => h (hEo.2 h'), by rw [hx, if_neg h, hM.x]⟩
          · rw [hM.k, k3]
            exact Agrees.finish N.ops hmx _ _ _ (residual_eq N.ops hmx) (hrender _)
        · rw [if_neg hnl]
          have hd : f.x.clip.diff s'.x = pd (E.axpy (-1) s.xk (Core.projectDuals out.x)) := by
            rw [pd_diff, hfx, hM.x]
          have hmd : Core.Marg q (E.axpy (-1) s.xk (Core.projectDuals out.x)) := hmp.axpy N.ops hM.marg _
          by_cases hc : E.opts.checkFeasibility = true
          · rw [if_pos hc]
            dsimp only
            have hfl := flag_eq N (E.axpy (-1) s.xk (Core.projectDuals out.x)) s.ws
            by_cases he : Core.flagOf (checkFeasibility E.ops (E.axpy (-1) s.xk (Core.projectDuals out.x))
                E.opts.infeasTol s.ws).1 = .success
            · rw [if_neg (not_not.2 he)]
              obtain ⟨r, hr, ha, hv⟩ := ih ⟨nextTol q E.opts s', Core.projectDuals out.x,
                  E.axpy (-1) s.xk (Core.projectDuals out.x), s.prox + 1, out.newton, out.rk,
                  (checkFeasibility E.ops (E.axpy (-1) s.xk (Core.projectDuals out.x))
                    E.opts.infeasTol s.ws).2⟩ ri'
                ⟨s'.k + 1, f.newtons, f.x.clip, (f.x.clip.diff s'.x).length, nextTol q E.opts s', f.seen,
                  f.sub⟩ ⟨by simp [hM.k], k3, hfx, by rw [normPt_eq, hd], rfl, k7.symm, k8.symm, hmp⟩
                (by simp only; omega)
              refine ⟨_, .step hk hsol (by rw [k3]; omega) (fun _ e h => ?_) hr, ?_, hv⟩
              · rw [hd, hfl] at h
                exact h.1 (h.2.symm.trans he)
              · dsimp only at ha ⊢
                rw [hrender, ha, ← List.filter_append]
            · rw [if_pos he]
              refine ⟨_, .infeasible hk hsol (by rw [k3]; omega) hc
                (by rw [hd, hfl]; exact ⟨he, rfl⟩), ?_⟩
              rw [hM.k, k3, hd]
              exact Agrees.finish N.ops hmd _ _ _ k7 (hrender _)
          · rw [if_neg hc]
            dsimp only
            rw [if_neg (by simp)]
            obtain ⟨r, hr, ha, hv⟩ := ih ⟨nextTol q E.opts s', Core.projectDuals out.x,
                E.axpy (-1) s.xk (Core.projectDuals out.x), s.prox + 1, out.newton, out.rk, s.ws⟩ ri'
              ⟨s'.k + 1, f.newtons, f.x.clip, (f.x.clip.diff s'.x).length, nextTol q E.opts s', f.seen,
                f.sub⟩ ⟨by simp [hM.k], k3, hfx, by rw [normPt_eq, hd], rfl, k7.symm, k8.symm, hmp⟩
              (by simp only; omega)
            refine ⟨_, .step hk hsol (by rw [k3]; omega) (fun h => absurd h hc) hr, ?_, hv⟩
            dsimp only at ha ⊢
            rw [hrender, ha, ← List.filter_append]

/-- A call. -/
theorem solve_full (N : Core.NewtonEnv E q) (ws : FeasWs ℝ nz nl nv) (z : Vec ℝ nz) (l : Vec ℝ nl)
    (v : Vec ℝ nv) (ri : Resid ℝ nz nl nv) :
    ∃ r, Run q E.opts ⟨z.fn, l.fn, v.fn⟩ (Core.Resid.norm ri) r ∧ Agrees E q ri r (Core.solve E ws z l v) := by
  have hm : Core.Marg q (Core.startPt E z l v) := Core.Marg.start N.ops z l v
  have hrk : Core.Resid.norm (E.penRes (Core.startPt E z l v)) =
      (residual q E.opts ⟨z.fn, l.fn, v.fn⟩).norm := by
    rw [partsOf_norm, residual_eq N.ops hm]; rfl
  rw [Core.solve]
  dsimp only
  rcases lt_or_ge E.opts.innerTolMax E.opts.innerTolMin with hb | hb
  · rw [saturate, if_pos hb]
    exact ⟨_, .throws hb, rfl, rfl⟩
  · rw [saturate_real hb]
    dsimp only
    obtain ⟨r, hr, ha, hv⟩ := proxLoop_full N (Core.Resid.norm (E.penRes (Core.startPt E z l v)))
      E.opts.maxProxIters.toNat
      ⟨max (min (Core.Resid.norm (E.penRes (Core.startPt E z l v))) E.opts.innerTolMax) E.opts.innerTolMin,
        Core.startPt E z l v, Core.onesPt E, 0, 0, E.penRes (Core.startPt E z l v), ws⟩ ri
      ⟨0, 0, ⟨z.fn, l.fn, v.fn⟩, PD.length (PD.ones : PD nz nl nv),
        max (min (residual q E.opts ⟨z.fn, l.fn, v.fn⟩).norm E.opts.innerTolMax) E.opts.innerTolMin,
        residual q E.opts ⟨z.fn, l.fn, v.fn⟩, Core.Resid.norm ri⟩
      ⟨rfl, rfl, rfl, (by
        rw [normPt_eq]
        show PD.length PD.ones = PD.length (pd (Core.onesPt E))
        congr 1; refine PD.ext ?_ ?_ ?_ <;> funext i <;> simp [pd, Core.onesPt, PD.ones]),
        by rw [hrk], (residual_eq N.ops hm).symm, rfl, hm⟩ (by simp)
    rw [hrk] at hr
    refine ⟨_, .starts hb hr, ?_, hv⟩
    simp only [Core.render, ha]
    cases E.opts.displayLevel <;> simp [visible]

end
end Method
end Fbstab
