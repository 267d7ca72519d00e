import Verif.Proofs.Trace
import Verif.Proofs.CoreFacts

/-!
# The residual in the summary: which point it belongs to
-/

namespace Fbstab.Core
variable {K : Type} [Scalar K] {nz nl nv : Nat}

/-- The trace of a run, with the point whose residual stands in the summary. -/
def SummaryAt (E : Env K nz nl nv)
    (p : List (Event K nz nl nv) × Except Err (Final K nz nl nv)) : Prop :=
  ∀ fin, p.2 = .ok fin → ∃ pre w,
    p.1 = pre ++ [.final fin.out.eflag fin.out.proxIters fin.out.newtonIters (E.penRes w)] ∧
      NoFinal pre ∧ fin.out.residual = Resid.norm (E.penRes w) ∧
      ((fin.out.eflag = .success ∨ (fin.out.eflag = .maxIterations ∧
        E.opts.maxNewtonIters ≤ (fin.out.newtonIters : Int))) → w = fin.x)

theorem subproblem_rk {E : Env K nz nl nv} {tol Ek : K} {xk : Point K nz nl nv} {newton : Nat}
    {w : Point K nz nl nv} {o : InnerOut K nz nl nv}
    (h : (subproblem E tol Ek xk newton (E.penRes w)).2 = .ok o) : ∃ w', o.rk = E.penRes w' := by
  have key : ∀ fuel i t Eo x n buf rk, (∃ w, rk = E.penRes w) → ∀ o,
      (innerLoop E tol E.opts.sigma0 Ek xk fuel i t Eo x n buf rk).2 = .ok o →
      ∃ w', o.rk = E.penRes w' := by
    intro fuel
    induction fuel with
    | zero =>
      intro i t Eo x n buf rk hw o h
      simp only [innerLoop] at h
      cases h
      exact hw
    | succ fuel ih =>
      intro i t Eo x n buf rk hw o h
      simp only [innerLoop] at h
      split at h
      · cases h; exact ⟨_, rfl⟩
      · split at h
        · cases h; exact ⟨_, rfl⟩
        · split at h
          · cases h
          · cases h
          · exact ih _ _ _ _ _ _ _ ⟨_, rfl⟩ _ h
  simp only [subproblem] at h
  generalize hq : (innerLoop E tol E.opts.sigma0 Ek xk E.opts.maxInnerIters.toNat 0 1 0 xk newton
    (Vec.const 0) (E.penRes w)).2 = q at h
  cases q with
  | error e => cases h
  | ok o' =>
    cases h
    exact key _ _ _ _ _ _ _ _ ⟨w, rfl⟩ o' hq

theorem proxLoop_summaryAt (E : Env K nz nl nv) (E0 : K) (fuel : Nat) :
    ∀ s : Outer K nz nl nv, (∃ w, s.rk = E.penRes w) →
      (1 ≤ fuel ∨ (s.newton : Int) < E.opts.maxNewtonIters) → SummaryAt E (proxLoop E E0 fuel s) := by
  induction fuel with
  | zero =>
    intro s hw hn fin hfin
    obtain ⟨w, hw⟩ := hw
    simp only [proxLoop] at hfin
    cases hfin
    refine ⟨[], w, ?_, .nil, ?_, ?_⟩
    · simp only [proxLoop, mkFinal, hw, List.nil_append]
    · simp only [mkFinal, hw]
    · rintro (h | ⟨-, h⟩)
      · cases h
      · simp only [mkFinal] at h
        rcases hn with hn | hn
        · exact absurd hn (by omega)
        · omega
  | succ fuel ih =>
    intro s _ _
    have hpre : NoFinal [Event.outerDetailed s.prox s.newton (E.penRes s.xk),
        .outer s.prox s.newton (E.penRes s.xk) s.innerTol] :=
      .cons (by intros; simp) (.cons (by intros; simp) .nil)
    simp only [proxLoop]
    split
    · intro fin hfin
      cases hfin
      exact ⟨[_], s.xk, rfl, .cons (by intros; simp) .nil, rfl, fun _ => rfl⟩
    · split
      · intro fin hfin
        cases hfin
      · rename_i tol _
        have hq : NoFinal (subproblem E tol (Resid.norm (E.penRes s.xk)) s.xk s.newton
          (E.penRes s.xk)).1 := innerLoop_noFinal _ _ _ _ _ _ _ _ _ _ _ _ _
        split
        · intro fin hfin
          cases hfin
        · rename_i o ho
          obtain ⟨w, hw⟩ := subproblem_rk ho
          by_cases hn : E.opts.maxNewtonIters ≤ (o.newton : Int)
          · simp only [afterInner, if_pos hn]
            intro fin hfin
            cases hfin
            exact ⟨_, _, rfl, hpre.append hq, rfl, fun _ => rfl⟩
          · simp only [afterInner, if_neg hn]
            generalize (if E.opts.checkFeasibility = true then _ else _ : ExitFlag × FeasWs K nz nl nv)
              = f
            by_cases hf : f.1 = .success
            · simp only [hf, ne_eq, not_true_eq_false, if_false]
              have h := ih ⟨tol, o.x, E.axpy (-1) s.xk o.x, s.prox + 1, o.newton, o.rk, f.2⟩ ⟨w, hw⟩
                (.inr (by dsimp only; omega))
              intro fin hfin
              obtain ⟨pre, w, h1, h2, h3⟩ := h fin hfin
              refine ⟨_, w, ?_, (hpre.append hq).append h2, h3⟩
              rw [h1]
              simp only [List.append_assoc]
            · simp only [hf, ne_eq, not_false_eq_true, if_true]
              intro fin hfin
              cases hfin
              refine ⟨_, w, ?_, hpre.append hq, ?_, ?_⟩
              · simp only [mkFinal, hw]
              · simp only [mkFinal, hw]
              · rintro (h | ⟨-, h⟩)
                · exact absurd h hf
                · exact absurd h hn

theorem solve_summaryAt (E : Env K nz nl nv) (hl : 1 ≤ E.opts.maxProxIters) (ws : FeasWs K nz nl nv)
    (z : Vec K nz) (l : Vec K nl) (v : Vec K nv) : SummaryAt E (solve E ws z l v) := by
  simp only [solve]
  split
  · intro fin hfin
    cases hfin
  · rename_i tol _
    have h := proxLoop_summaryAt E (Resid.norm (E.penRes (startPt E z l v))) E.opts.maxProxIters.toNat
      ⟨tol, startPt E z l v, onesPt E, 0, 0, E.penRes (startPt E z l v), ws⟩ ⟨_, rfl⟩ (.inl (by omega))
    intro fin hfin
    obtain ⟨pre, w, h1, h2, h3⟩ := h fin hfin
    exact ⟨.header :: pre, w, by rw [h1]; rfl, .cons (by intros; simp) h2, h3⟩

end Fbstab.Core
