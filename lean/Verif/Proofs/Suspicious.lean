import Verif.Proofs.Limits
import Verif.Proofs.Trace
import Verif.Proofs.Certificates
import Verif.Spec.Tolerance

/-!
# Runs with different tolerances for infeasibility
-/

namespace Fbstab.Core
variable {K : Type} [Scalar K] {nz nl nv : Nat} (E : Env K nz nl nv)

/-- The environment with another tolerance for infeasibility. -/
def Env.suspicious (E : Env K nz nl nv) (c : K) : Env K nz nl nv :=
  { E with opts := E.opts.suspicious c }

variable (c : K)

theorem lineSearch_suspicious (sigma m0 cm : K) (x xbar dx : Point K nz nl nv) (n : Nat) (t : K) :
    lineSearch (E.suspicious c) sigma m0 cm x xbar dx n t = lineSearch E sigma m0 cm x xbar dx n t := by
  induction n generalizing t with
  | zero => rfl
  | succ n ih => simp only [lineSearch, ih]; rfl

theorem newtonStep_suspicious (sigma : K) (xbar : Point K nz nl nv) (g) (x : Point K nz nl nv)
    (ri : Resid K nz nl nv) (buf : Vec K 5) :
    newtonStep (E.suspicious c) sigma xbar g x ri buf = newtonStep E sigma xbar g x ri buf := by
  simp only [newtonStep, lineSearch_suspicious]
  rfl

theorem innerLoop_suspicious (tol sigma Ek : K) (xbar : Point K nz nl nv) (fuel i : Nat) (t Eo : K)
    (x : Point K nz nl nv) (newton : Nat) (buf : Vec K 5) (rk : Resid K nz nl nv) :
    innerLoop (E.suspicious c) tol sigma Ek xbar fuel i t Eo x newton buf rk =
      innerLoop E tol sigma Ek xbar fuel i t Eo x newton buf rk := by
  induction fuel generalizing i t Eo x newton buf rk with
  | zero => rfl
  | succ fuel ih => simp only [innerLoop, newtonStep_suspicious, ih]; rfl

theorem subproblem_suspicious (tol Ek : K) (xk : Point K nz nl nv) (newton : Nat) (rk : Resid K nz nl nv) :
    subproblem (E.suspicious c) tol Ek xk newton rk = subproblem E tol Ek xk newton rk := by
  simp only [subproblem, innerLoop_suspicious]
  rfl

/-- What a larger tolerance for infeasibility can change: infeasibility is reported earlier, or otherwise. -/
def Flagged (p p' : List (Event K nz nl nv) × Except Err (Final K nz nl nv)) : Prop :=
  p' = p ∨ ∃ fin' pre rk, p'.2 = .ok fin' ∧ fin'.out.eflag ≠ .success ∧ fin'.out.eflag ≠ .maxIterations ∧ NoFinal pre ∧
    p'.1 = pre ++ [.final fin'.out.eflag fin'.out.proxIters fin'.out.newtonIters rk] ∧ pre <+: p.1 ∧
    ∀ fin, p.2 = .ok fin → fin'.out.proxIters ≤ fin.out.proxIters ∧ fin'.out.newtonIters ≤ fin.out.newtonIters

theorem proxLoop_suspicious (E0 : K)
    (hm : ∀ x ws, (checkFeasibility E.ops x c ws).1 = .feasible →
      (checkFeasibility E.ops x E.opts.infeasTol ws).1 = .feasible) (fuel : Nat) (s : Outer K nz nl nv) :
    Flagged (proxLoop E E0 fuel s) (proxLoop (E.suspicious c) E0 fuel s) := by
  induction fuel generalizing s with
  | zero => exact .inl rfl
  | succ fuel ih =>
    by_cases hs : Resid.norm (E.penRes s.xk) ≤ E.comboTol ∨ normPt s.dx ≤ E.opts.stallTol
    · left
      simp only [proxLoop]
      rw [if_pos hs]
      exact if_pos hs
    · have hpre : NoFinal [Event.outerDetailed s.prox s.newton (E.penRes s.xk),
          .outer s.prox s.newton (E.penRes s.xk) s.innerTol] :=
        .cons (by intros; simp) (.cons (by intros; simp) .nil)
      have hsub : ∀ tol, NoFinal (subproblem E tol (Resid.norm (E.penRes s.xk)) s.xk s.newton
        (E.penRes s.xk)).1 := fun tol => innerLoop_noFinal _ _ _ _ _ _ _ _ _ _ _ _ _
      simp only [proxLoop]
      rw [show (E.suspicious c).penRes s.xk = E.penRes s.xk from rfl,
        show (E.suspicious c).comboTol = E.comboTol from rfl,
        show (E.suspicious c).opts.innerTolMin = E.opts.innerTolMin from rfl,
        show (E.suspicious c).opts.delta = E.opts.delta from rfl,
        show (E.suspicious c).opts.stallTol = E.opts.stallTol from rfl, if_neg hs, if_neg hs]
      cases ht : saturate (s.innerTol * E.opts.delta) E.opts.innerTolMin (Resid.norm (E.penRes s.xk)) with
      | error e => exact .inl rfl
      | ok tol =>
        dsimp only
        rw [subproblem_suspicious]
        cases hq : (subproblem E tol (Resid.norm (E.penRes s.xk)) s.xk s.newton (E.penRes s.xk)).2 with
        | error e => exact .inl rfl
        | ok o =>
          dsimp only
          by_cases hn : E.opts.maxNewtonIters ≤ (o.newton : Int)
          · have e : afterInner (E.suspicious c) E0 (Resid.norm (E.penRes s.xk)) tol s o =
                afterInner E E0 (Resid.norm (E.penRes s.xk)) tol s o := by
              unfold afterInner
              rw [if_pos hn, if_pos (show (E.suspicious c).opts.maxNewtonIters ≤ (o.newton : Int) from hn)]
              rfl
            rw [e]
            left
            cases ha : afterInner E E0 (Resid.norm (E.penRes s.xk)) tol s o with
            | inl w => rfl
            | inr s' =>
              unfold afterInner at ha
              rw [if_pos hn] at ha
              cases ha
          · have recur : ∀ s', afterInner (E.suspicious c) E0 (Resid.norm (E.penRes s.xk)) tol s o = .inr s' →
                afterInner E E0 (Resid.norm (E.penRes s.xk)) tol s o = .inr s' →
                Flagged
                  (match afterInner E E0 (Resid.norm (E.penRes s.xk)) tol s o with
                    | .inl (ev, fin) => ([Event.outerDetailed s.prox s.newton (E.penRes s.xk),
                        .outer s.prox s.newton (E.penRes s.xk) s.innerTol] ++
                      (subproblem E tol (Resid.norm (E.penRes s.xk)) s.xk s.newton (E.penRes s.xk)).1 ++ ev, .ok fin)
                    | .inr s' => ([Event.outerDetailed s.prox s.newton (E.penRes s.xk),
                        .outer s.prox s.newton (E.penRes s.xk) s.innerTol] ++
                      (subproblem E tol (Resid.norm (E.penRes s.xk)) s.xk s.newton (E.penRes s.xk)).1 ++
                        (proxLoop E E0 fuel s').1, (proxLoop E E0 fuel s').2))
                  (match afterInner (E.suspicious c) E0 (Resid.norm (E.penRes s.xk)) tol s o with
                    | .inl (ev, fin) => ([Event.outerDetailed s.prox s.newton (E.penRes s.xk),
                        .outer s.prox s.newton (E.penRes s.xk) s.innerTol] ++
                      (subproblem E tol (Resid.norm (E.penRes s.xk)) s.xk s.newton (E.penRes s.xk)).1 ++ ev, .ok fin)
                    | .inr s' => ([Event.outerDetailed s.prox s.newton (E.penRes s.xk),
                        .outer s.prox s.newton (E.penRes s.xk) s.innerTol] ++
                      (subproblem E tol (Resid.norm (E.penRes s.xk)) s.xk s.newton (E.penRes s.xk)).1 ++
                        (proxLoop (E.suspicious c) E0 fuel s').1, (proxLoop (E.suspicious c) E0 fuel s').2)) := by
              intro s' e1 e2
              rw [e1, e2]
              dsimp only
              rcases ih s' with h | ⟨fin, pre, rk, g1, g2, g2', g3, g5, ⟨w, g4⟩, g6⟩
              · rw [h]; exact .inl rfl
              · refine .inr ⟨fin, _, rk, g1, g2, g2', (hpre.append (hsub tol)).append g3, ?_, ⟨w, ?_⟩, g6⟩
                · rw [g5]; simp only [List.append_assoc]
                · rw [← g4]; simp only [List.append_assoc]
            have a1 : ∀ E' : Env K nz nl nv, E'.opts.maxNewtonIters = E.opts.maxNewtonIters →
                E'.opts.checkFeasibility = E.opts.checkFeasibility → E'.axpy = E.axpy → E'.ops = E.ops →
                afterInner E' E0 (Resid.norm (E.penRes s.xk)) tol s o =
                  let dx := E.axpy (-1) s.xk o.x
                  let f := if E.opts.checkFeasibility then
                      let k := checkFeasibility E.ops dx E'.opts.infeasTol s.ws
                      (flagOf k.1, k.2)
                    else (.success, s.ws)
                  if f.1 ≠ .success then
                    .inl ([.final f.1 s.prox o.newton o.rk], mkFinal E0 f.1 s.prox o.newton o.rk dx)
                  else .inr ⟨tol, o.x, dx, s.prox + 1, o.newton, o.rk, f.2⟩ := by
              intro E' h1 h2 h3 h4
              unfold afterInner
              rw [h1, h2, h3, h4, if_neg hn]
            have b1 := a1 E rfl rfl rfl rfl
            have b2 := a1 (E.suspicious c) rfl rfl rfl rfl
            cases hc : E.opts.checkFeasibility with
            | false =>
              refine recur ⟨tol, o.x, E.axpy (-1) s.xk o.x, s.prox + 1, o.newton, o.rk, s.ws⟩ ?_ ?_
              · rw [b2, hc]; rfl
              · rw [b1, hc]; rfl
            | true =>
              by_cases hf : (checkFeasibility E.ops (E.axpy (-1) s.xk o.x) c s.ws).1 = .feasible
              · refine recur ⟨tol, o.x, E.axpy (-1) s.xk o.x, s.prox + 1, o.newton, o.rk,
                  (checkFeasibility E.ops (E.axpy (-1) s.xk o.x) c s.ws).2⟩ ?_ ?_
                · rw [b2, hc]
                  dsimp only
                  rw [if_pos rfl, if_neg]
                  · rfl
                  · show ¬flagOf (checkFeasibility E.ops (E.axpy (-1) s.xk o.x) c s.ws).1 ≠ _
                    rw [hf]; exact fun h => h rfl
                · rw [b1, hc]
                  dsimp only
                  rw [if_pos rfl, if_neg]
                  · rfl
                  · show ¬flagOf (checkFeasibility E.ops (E.axpy (-1) s.xk o.x) E.opts.infeasTol s.ws).1 ≠ _
                    rw [hm _ _ hf]; exact fun h => h rfl
              · right
                have hfl := (flagOf_ne_success _).2 hf
                have e2 : afterInner (E.suspicious c) E0 (Resid.norm (E.penRes s.xk)) tol s o =
                    .inl ([.final (flagOf (checkFeasibility E.ops (E.axpy (-1) s.xk o.x) c s.ws).1) s.prox o.newton o.rk],
                      mkFinal E0 (flagOf (checkFeasibility E.ops (E.axpy (-1) s.xk o.x) c s.ws).1) s.prox o.newton o.rk
                        (E.axpy (-1) s.xk o.x)) := by
                  rw [b2, hc]
                  dsimp only
                  rw [if_pos rfl, if_pos]
                  · rfl
                  · exact hfl
                rw [e2]
                dsimp only
                refine ⟨_, _, o.rk, rfl, hfl, flagOf_ne _, hpre.append (hsub tol), rfl, ?_, ?_⟩
                · split <;> exact ⟨_, rfl⟩
                · intro fin h
                  show s.prox ≤ _ ∧ o.newton ≤ _
                  rw [b1] at h
                  dsimp only at h
                  revert h
                  generalize (if E.opts.checkFeasibility = true then _ else _ : ExitFlag × FeasWs K nz nl nv) = w
                  intro h
                  by_cases h2 : w.1 = .success
                  · rw [if_neg (by rw [h2]; simp)] at h
                    have := proxLoop_counts h
                    exact ⟨Nat.le_of_succ_le this.1, this.2⟩
                  · rw [if_pos h2] at h
                    cases h; exact ⟨Nat.le_refl _, Nat.le_refl _⟩

theorem solve_suspicious {ws : FeasWs K nz nl nv} {z : Vec K nz} {l : Vec K nl} {v : Vec K nv}
    (hm : ∀ x ws, (checkFeasibility E.ops x c ws).1 = .feasible →
      (checkFeasibility E.ops x E.opts.infeasTol ws).1 = .feasible) :
    Flagged (solve E ws z l v) (solve (E.suspicious c) ws z l v) := by
  simp only [solve]
  rw [show saturate (Resid.norm ((E.suspicious c).penRes (startPt (E.suspicious c) z l v)))
      (E.suspicious c).opts.innerTolMin (E.suspicious c).opts.innerTolMax =
      saturate (Resid.norm (E.penRes (startPt E z l v))) E.opts.innerTolMin E.opts.innerTolMax from rfl]
  cases hsat : saturate (Resid.norm (E.penRes (startPt E z l v))) E.opts.innerTolMin E.opts.innerTolMax with
  | error e => exact .inl rfl
  | ok tol =>
    dsimp only
    rcases proxLoop_suspicious E c (Resid.norm (E.penRes (startPt E z l v))) hm E.opts.maxProxIters.toNat
      ⟨tol, startPt E z l v, onesPt E, 0, 0, E.penRes (startPt E z l v), ws⟩ with
      h | ⟨fin, pre, rk, g1, g2, g2', g3, g5, ⟨w, g4⟩, g6⟩
    · exact .inl (congrArg (fun p : List (Event K nz nl nv) × Except Err (Final K nz nl nv) =>
        (Event.header :: p.1, p.2)) h)
    · exact .inr ⟨fin, .header :: pre, rk, g1, g2, g2', .cons (by intros; simp) g3, congrArg (Event.header :: ·) g5,
        ⟨w, congrArg (Event.header :: ·) g4⟩, g6⟩

/-- Over the reals: what is no certificate with a larger tolerance is none with a smaller one. -/
theorem checkFeasibility_mono {q : QP nz nl nv} {ops : QPOps ℝ nz nl nv} (I : q.Implements ops) {t c : ℝ} (ht : 0 ≤ t)
    (h : t ≤ c) (x : Point ℝ nz nl nv) (ws : FeasWs ℝ nz nl nv) (hf : (checkFeasibility ops x c ws).1 = .feasible) :
    (checkFeasibility ops x t ws).1 = .feasible := by
  obtain ⟨p1, d1⟩ := checkFeasibility_real I x t ht ws
  obtain ⟨p2, d2⟩ := checkFeasibility_real I x c (ht.trans h) ws
  have np : ¬q.PrimalCertificate t x.l.fn x.v.fn := fun hp => by
    have : q.PrimalCertificate c x.l.fn x.v.fn := ⟨hp.small.trans (mul_le_mul_of_nonneg_right h
      (le_max_of_le_left (norm_nonneg _))), hp.neg⟩
    have := p2.2 this
    rw [hf] at this; simp at this
  have nd : ¬q.DualCertificate t x.z.fn := fun hp => by
    have hz : t * ‖x.z.fn‖ ≤ c * ‖x.z.fn‖ := mul_le_mul_of_nonneg_right h (norm_nonneg _)
    have : q.DualCertificate c x.z.fn :=
      ⟨fun i => (hp.ineq i).trans hz, hp.eq.trans hz, hp.flat.trans hz, hp.descent, hp.nonzero⟩
    have := d2.2 this
    rw [hf] at this; simp at this
  cases e : (checkFeasibility ops x t ws).1 with
  | feasible => rfl
  | primalInfeasible => exact absurd (p1.1 (.inl e)) np
  | dualInfeasible => exact absurd (d1.1 (.inl e)) nd
  | both => exact absurd (p1.1 (.inr e)) np

end Fbstab.Core
