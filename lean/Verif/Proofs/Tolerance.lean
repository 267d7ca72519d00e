import Verif.Proofs.Limits
import Verif.Proofs.Trace
import Verif.Spec.Tolerance

/-!
# Runs with different tolerances

The tolerances for the residual and for the step decide when the main loop stops, and nothing else.
-/

namespace Fbstab.Core
variable {K : Type} [Scalar K] {nz nl nv : Nat} (E : Env K nz nl nv)

/-- The environment with other tolerances. -/
def Env.tolerant (E : Env K nz nl nv) (a r st : K) : Env K nz nl nv :=
  { E with opts := E.opts.tolerant a r st }

variable (a r st : K)

theorem lineSearch_tolerant (sigma m0 cm : K) (x xbar dx : Point K nz nl nv) (n : Nat) (t : K) :
    lineSearch (E.tolerant a r st) sigma m0 cm x xbar dx n t = lineSearch E sigma m0 cm x xbar dx n t := by
  induction n generalizing t with
  | zero => rfl
  | succ n ih => simp only [lineSearch, ih]; rfl

theorem newtonStep_tolerant (sigma : K) (xbar : Point K nz nl nv) (g) (x : Point K nz nl nv)
    (ri : Resid K nz nl nv) (buf : Vec K 5) :
    newtonStep (E.tolerant a r st) sigma xbar g x ri buf = newtonStep E sigma xbar g x ri buf := by
  simp only [newtonStep, lineSearch_tolerant]
  rfl

theorem innerLoop_tolerant (tol sigma Ek : K) (xbar : Point K nz nl nv) (fuel i : Nat) (t Eo : K)
    (x : Point K nz nl nv) (newton : Nat) (buf : Vec K 5) (rk : Resid K nz nl nv) :
    innerLoop (E.tolerant a r st) tol sigma Ek xbar fuel i t Eo x newton buf rk =
      innerLoop E tol sigma Ek xbar fuel i t Eo x newton buf rk := by
  induction fuel generalizing i t Eo x newton buf rk with
  | zero => rfl
  | succ fuel ih => simp only [innerLoop, newtonStep_tolerant, ih]; rfl

theorem subproblem_tolerant (tol Ek : K) (xk : Point K nz nl nv) (newton : Nat) (rk : Resid K nz nl nv) :
    subproblem (E.tolerant a r st) tol Ek xk newton rk = subproblem E tol Ek xk newton rk := by
  simp only [subproblem, innerLoop_tolerant]
  rfl

/-- What larger tolerances can change: the run stops earlier. -/
def Earlier (E : Env K nz nl nv) (a r st E0 : K) (p p' : List (Event K nz nl nv) × Except Err (Final K nz nl nv)) :
    Prop :=
  p' = p ∨ ∃ pre rest prox newton x tol,
    NoFinal pre ∧
    p'.1 = pre ++ [.outer prox newton (E.penRes x) tol, .final .success prox newton (E.penRes x)] ∧
    p.1 = pre ++ (.outerDetailed prox newton (E.penRes x) :: .outer prox newton (E.penRes x) tol :: rest) ∧
    p'.2 = .ok (mkFinal E0 .success prox newton (E.penRes x) x) ∧
    ¬Resid.norm (E.penRes x) ≤ E.comboTol ∧
    (Looser st E.opts.stallTol → Resid.norm (E.penRes x) ≤ (E.tolerant a r st).comboTol) ∧
    ∀ fin, p.2 = .ok fin → prox ≤ fin.out.proxIters ∧ newton ≤ fin.out.newtonIters

theorem proxLoop_tolerant (E0 : K) (ht : Looser E.comboTol (E.tolerant a r st).comboTol)
    (hst : Looser E.opts.stallTol st) (fuel : Nat) (s : Outer K nz nl nv) :
    Earlier E a r st E0 (proxLoop E E0 fuel s) (proxLoop (E.tolerant a r st) E0 fuel s) := by
  induction fuel generalizing s with
  | zero => exact .inl rfl
  | succ fuel ih =>
    have hcnt := fun fin => proxLoop_counts (E := E) (E0 := E0) (fuel := fuel + 1) (s := s) (fin := fin)
    by_cases hs : Resid.norm (E.penRes s.xk) ≤ E.comboTol ∨ normPt s.dx ≤ E.opts.stallTol
    · have hs' : Resid.norm (E.penRes s.xk) ≤ (E.tolerant a r st).comboTol ∨ normPt s.dx ≤ st :=
        hs.imp (ht _) (hst _)
      refine .inl ?_
      simp only [proxLoop]
      rw [if_pos hs]
      exact if_pos hs'
    · by_cases hs' : Resid.norm (E.penRes s.xk) ≤ (E.tolerant a r st).comboTol ∨ normPt s.dx ≤ st
      · have e : proxLoop (E.tolerant a r st) E0 (fuel + 1) s =
            ([.outer s.prox s.newton (E.penRes s.xk) s.innerTol, .final .success s.prox s.newton (E.penRes s.xk)],
              .ok (mkFinal E0 .success s.prox s.newton (E.penRes s.xk) s.xk)) := by
          simp only [proxLoop]
          exact if_pos hs'
        rw [e]
        obtain ⟨rest, hrest⟩ : ∃ rest, (proxLoop E E0 (fuel + 1) s).1 =
            .outerDetailed s.prox s.newton (E.penRes s.xk) ::
              .outer s.prox s.newton (E.penRes s.xk) s.innerTol :: rest := by
          simp only [proxLoop]
          rw [if_neg hs]
          split
          · exact ⟨_, rfl⟩
          · split
            · exact ⟨_, rfl⟩
            · split
              · exact ⟨_, rfl⟩
              · exact ⟨_, rfl⟩
        refine .inr ⟨[], rest, s.prox, s.newton, s.xk, s.innerTol, .nil, rfl, hrest, rfl, fun h => hs (.inl h),
          fun h => hs'.resolve_right fun h' => hs (.inr (h _ h')), fun fin h => hcnt fin h⟩
      · simp only [proxLoop]
        rw [show (E.tolerant a r st).penRes s.xk = E.penRes s.xk from rfl,
          show (E.tolerant a r st).opts.innerTolMin = E.opts.innerTolMin from rfl,
          show (E.tolerant a r st).opts.delta = E.opts.delta from rfl,
          show (E.tolerant a r st).opts.stallTol = st from rfl, if_neg hs, if_neg hs']
        cases ht' : saturate (s.innerTol * E.opts.delta) E.opts.innerTolMin (Resid.norm (E.penRes s.xk)) with
        | error e => exact .inl rfl
        | ok tol =>
          dsimp only
          rw [subproblem_tolerant]
          cases hq : (subproblem E tol (Resid.norm (E.penRes s.xk)) s.xk s.newton (E.penRes s.xk)).2 with
          | error e => exact .inl rfl
          | ok o =>
            dsimp only
            rw [show afterInner (E.tolerant a r st) E0 (Resid.norm (E.penRes s.xk)) tol s o =
              afterInner E E0 (Resid.norm (E.penRes s.xk)) tol s o from rfl]
            cases hr : afterInner E E0 (Resid.norm (E.penRes s.xk)) tol s o with
            | inl w => exact .inl rfl
            | inr s' =>
              dsimp only
              rcases ih s' with h | ⟨pre, rest, prox, newton, x, itol, h0, h1, h2, h3, h4, h5, h6⟩
              · rw [h]; exact .inl rfl
              · have hpre : NoFinal [Event.outerDetailed s.prox s.newton (E.penRes s.xk),
                    .outer s.prox s.newton (E.penRes s.xk) s.innerTol] :=
                  .cons (by intros; simp) (.cons (by intros; simp) .nil)
                have hsub : NoFinal (subproblem E tol (Resid.norm (E.penRes s.xk)) s.xk s.newton
                  (E.penRes s.xk)).1 := innerLoop_noFinal _ _ _ _ _ _ _ _ _ _ _ _ _
                refine .inr ⟨_, rest, prox, newton, x, itol, (hpre.append hsub).append h0, ?_, ?_, h3, h4, h5, h6⟩
                · rw [h1]; simp only [List.append_assoc]
                · rw [h2]; simp only [List.append_assoc]

theorem solve_tolerant {ws : FeasWs K nz nl nv} {z : Vec K nz} {l : Vec K nl} {v : Vec K nv}
    (ht : Looser E.comboTol (E.tolerant a r st).comboTol) (hst : Looser E.opts.stallTol st) :
    Earlier E a r st (Resid.norm (E.penRes (startPt E z l v))) (solve E ws z l v)
      (solve (E.tolerant a r st) ws z l v) := by
  simp only [solve]
  rw [show saturate (Resid.norm ((E.tolerant a r st).penRes (startPt (E.tolerant a r st) z l v)))
      (E.tolerant a r st).opts.innerTolMin (E.tolerant a r st).opts.innerTolMax =
      saturate (Resid.norm (E.penRes (startPt E z l v))) E.opts.innerTolMin E.opts.innerTolMax from rfl]
  cases hsat : saturate (Resid.norm (E.penRes (startPt E z l v))) E.opts.innerTolMin E.opts.innerTolMax with
  | error e => exact .inl rfl
  | ok tol =>
    dsimp only
    rcases proxLoop_tolerant E a r st (Resid.norm (E.penRes (startPt E z l v))) ht hst E.opts.maxProxIters.toNat
      ⟨tol, startPt E z l v, onesPt E, 0, 0, E.penRes (startPt E z l v), ws⟩ with
      h | ⟨pre, rest, prox, newton, x, itol, h0, h1, h2, h3, h4, h5, h6⟩
    · exact .inl (congrArg (fun p : List (Event K nz nl nv) × Except Err (Final K nz nl nv) =>
        (Event.header :: p.1, p.2)) h)
    · exact .inr ⟨.header :: pre, rest, prox, newton, x, itol, .cons (by intros; simp) h0,
        congrArg (Event.header :: ·) h1, congrArg (Event.header :: ·) h2, h3, h4, h5, h6⟩

/-- The tolerances are printed in the summary only. -/
theorem render_tolerant {o o' : Params K} (hd : o'.displayLevel = o.displayLevel) (c c' : K)
    {es : List (Event K nz nl nv)} (h : NoFinal es) (ri : Resid K nz nl nv) :
    render o' c' ri es = render o c ri es := by
  induction es generalizing ri with
  | nil => rfl
  | cons e es ih =>
    have h2 := ih fun f p n rk he => h f p n rk (List.mem_cons_of_mem _ he)
    cases e <;> simp only [render, h2, hd]
    exact absurd (List.mem_cons_self ..) (h _ _ _ _)

end Fbstab.Core
