import Verif.Proofs.Limits
import Verif.Proofs.Trace
import Verif.Spec.Tolerance

/-!
# Runs with larger iteration limits
-/

namespace Fbstab.Core
variable {K : Type} [Scalar K] {nz nl nv : Nat} (E : Env K nz nl nv)

/-- The environment with other limits. -/
def Env.limited (E : Env K nz nl nv) (P N : Int) : Env K nz nl nv :=
  { E with opts := E.opts.limited P N }

variable (P N : Int)

/-- What a larger limit for the Newton iterations can change in a subproblem: it goes on. -/
def Continues (N : Int) (q q' : List (Event K nz nl nv) × Except Err (InnerOut K nz nl nv)) : Prop :=
  q' = q ∨ ∃ o, q.2 = .ok o ∧ N ≤ (o.newton : Int) ∧ q.1 <+: q'.1 ∧ ∀ o', q'.2 = .ok o' → o.newton ≤ o'.newton

theorem innerLoop_longer (hN : E.opts.maxNewtonIters ≤ N) (tol sigma Ek : K) (xbar : Point K nz nl nv) (fuel : Nat) :
    ∀ (i : Nat) (t Eo : K) (x : Point K nz nl nv) (newton : Nat) (buf : Vec K 5) (rk : Resid K nz nl nv),
    Continues E.opts.maxNewtonIters (innerLoop E tol sigma Ek xbar fuel i t Eo x newton buf rk)
      (innerLoop (E.limited P N) tol sigma Ek xbar fuel i t Eo x newton buf rk) := by
  induction fuel with
  | zero => intros; exact .inl rfl
  | succ fuel ih =>
    intro i t Eo x newton buf rk
    have hge : ∀ o', (innerLoop (E.limited P N) tol sigma Ek xbar (fuel + 1) i t Eo x newton buf rk).2 = .ok o' →
        newton ≤ o'.newton := fun o' h => (innerLoop_facts _ _ _ _ _ _ _ _ _ _ _ _ _ o' h).ge
    by_cases ha : (Resid.norm (E.innerRes x xbar sigma) ≤ tol ∧ Resid.norm (E.penRes x) < Ek) ∨
        Resid.norm (E.innerRes x xbar sigma) ≤ E.opts.innerTolMin
    · left
      simp only [innerLoop]
      rw [if_pos ha]
      exact if_pos ha
    · by_cases hn : E.opts.maxNewtonIters ≤ (newton : Int)
      · right
        have e : innerLoop E tol sigma Ek xbar (fuel + 1) i t Eo x newton buf rk =
            ([.inner i t (E.innerRes x xbar sigma)], .ok ⟨x, Resid.norm (E.penRes x), newton, E.penRes x⟩) := by
          simp only [innerLoop]
          rw [if_neg ha, if_pos hn]
        rw [e]
        refine ⟨_, rfl, hn, ?_, hge⟩
        simp only [innerLoop]
        rw [show (E.limited P N).innerRes x xbar sigma = E.innerRes x xbar sigma from rfl,
          show (E.limited P N).penRes x = E.penRes x from rfl,
          show (E.limited P N).opts.innerTolMin = E.opts.innerTolMin from rfl, if_neg ha]
        split
        · exact List.prefix_refl _
        · split
          · exact List.prefix_refl _
          · exact List.prefix_refl _
          · exact ⟨_, rfl⟩
      · have hn' : ¬N ≤ (newton : Int) := fun h => hn (Int.le_trans hN h)
        simp only [innerLoop]
        rw [show (E.limited P N).innerRes x xbar sigma = E.innerRes x xbar sigma from rfl,
          show (E.limited P N).penRes x = E.penRes x from rfl,
          show (E.limited P N).opts.innerTolMin = E.opts.innerTolMin from rfl,
          show (E.limited P N).opts.maxNewtonIters = N from rfl,
          show (E.limited P N).factor = E.factor from rfl, if_neg ha, if_neg ha, if_neg hn, if_neg hn']
        split
        · exact .inl rfl
        · exact .inl rfl
        · rename_i g _
          rw [show newtonStep (E.limited P N) sigma xbar g x (E.innerRes x xbar sigma) buf =
            newtonStep E sigma xbar g x (E.innerRes x xbar sigma) buf from
              newtonStep_limits E P N E.opts.maxInnerIters sigma xbar g x _ buf]
          generalize newtonStep E sigma xbar g x (E.innerRes x xbar sigma) buf = w
          rcases ih (i + 1) w.2.1 (Resid.norm (E.penRes x)) w.1 (newton + 1) w.2.2.1 (E.penRes x) with
            h | ⟨o, h1, h2, h3, h4⟩
          · left; rw [h]
          · right
            refine ⟨o, h1, h2, ?_, h4⟩
            exact (List.prefix_append_right_inj (_ :: w.2.2.2)).2 h3

theorem subproblem_longer (hN : E.opts.maxNewtonIters ≤ N) (tol Ek : K) (xk : Point K nz nl nv) (newton : Nat)
    (rk : Resid K nz nl nv) :
    Continues E.opts.maxNewtonIters (subproblem E tol Ek xk newton rk)
      (subproblem (E.limited P N) tol Ek xk newton rk) := by
  rcases innerLoop_longer E P N hN tol E.opts.sigma0 Ek xk E.opts.maxInnerIters.toNat 0 1 0 xk newton
    (Vec.const 0) rk with h | ⟨o, h1, h2, h3, h4⟩
  · left
    simp only [subproblem]
    rw [show (E.limited P N).opts.sigma0 = E.opts.sigma0 from rfl,
      show (E.limited P N).opts.maxInnerIters = E.opts.maxInnerIters from rfl, h]
  · right
    refine ⟨{ o with x := projectDuals o.x }, ?_, h2, h3, fun o' h => ?_⟩
    · simp only [subproblem]; rw [h1]; rfl
    · obtain ⟨o'', e1, rfl⟩ := subproblem_ok h
      exact h4 o'' e1

/-- What larger limits can change: a run that reached a limit goes on. -/
def Longer (p p' : List (Event K nz nl nv) × Except Err (Final K nz nl nv)) : Prop :=
  p' = p ∨ ∃ fin pre rk, p.2 = .ok fin ∧ fin.out.eflag = .maxIterations ∧ NoFinal pre ∧ pre <+: p'.1 ∧
    p.1 = pre ++ [.final fin.out.eflag fin.out.proxIters fin.out.newtonIters rk] ∧
    ∀ fin', p'.2 = .ok fin' → fin.out.proxIters ≤ fin'.out.proxIters ∧ fin.out.newtonIters ≤ fin'.out.newtonIters

theorem proxLoop_longer (hN : E.opts.maxNewtonIters ≤ N) (E0 : K) (fuel : Nat) :
    ∀ (fuel' : Nat) (s : Outer K nz nl nv), fuel ≤ fuel' →
    Longer (proxLoop E E0 fuel s) (proxLoop (E.limited P N) E0 fuel' s) := by
  induction fuel with
  | zero =>
    intro fuel' s _
    exact .inr ⟨_, [], s.rk, rfl, rfl, .nil, List.nil_prefix, rfl, fun fin' h => proxLoop_counts h⟩
  | succ fuel ih =>
    intro fuel' s hf
    obtain ⟨fuel', rfl⟩ : ∃ k, fuel' = k + 1 := ⟨fuel' - 1, by omega⟩
    by_cases hs : Resid.norm (E.penRes s.xk) ≤ E.comboTol ∨ normPt s.dx ≤ E.opts.stallTol
    · left
      simp only [proxLoop]
      rw [if_pos hs]
      exact if_pos hs
    · have hpre : NoFinal [Event.outerDetailed s.prox s.newton (E.penRes s.xk),
          .outer s.prox s.newton (E.penRes s.xk) s.innerTol] :=
        .cons (by intros; simp) (.cons (by intros; simp) .nil)
      have hsub : ∀ tol, NoFinal (subproblem E tol (Resid.norm (E.penRes s.xk)) s.xk s.newton
        (E.penRes s.xk)).1 := fun tol => innerLoop_noFinal _ _ _ _ _ _ _ _ _ _ _ _ _
      simp only [proxLoop]
      rw [show (E.limited P N).penRes s.xk = E.penRes s.xk from rfl,
        show (E.limited P N).comboTol = E.comboTol from rfl,
        show (E.limited P N).opts.innerTolMin = E.opts.innerTolMin from rfl,
        show (E.limited P N).opts.delta = E.opts.delta from rfl,
        show (E.limited P N).opts.stallTol = E.opts.stallTol from rfl, if_neg hs, if_neg hs]
      cases ht : saturate (s.innerTol * E.opts.delta) E.opts.innerTolMin (Resid.norm (E.penRes s.xk)) with
      | error e => exact .inl rfl
      | ok tol =>
        dsimp only
        have hq := subproblem_longer E P N hN tol (Resid.norm (E.penRes s.xk)) s.xk s.newton (E.penRes s.xk)
        -- the limit was reached
        have limit : ∀ o, (subproblem E tol (Resid.norm (E.penRes s.xk)) s.xk s.newton (E.penRes s.xk)).2 = .ok o →
            E.opts.maxNewtonIters ≤ (o.newton : Int) →
            ∀ p', ([Event.outerDetailed s.prox s.newton (E.penRes s.xk),
                .outer s.prox s.newton (E.penRes s.xk) s.innerTol] ++
                (subproblem E tol (Resid.norm (E.penRes s.xk)) s.xk s.newton (E.penRes s.xk)).1 <+: p'.1) →
              (∀ fin', p'.2 = .ok fin' → s.prox ≤ fin'.out.proxIters ∧ o.newton ≤ fin'.out.newtonIters) →
              Longer (match afterInner E E0 (Resid.norm (E.penRes s.xk)) tol s o with
                | .inl (ev, fin) => ([Event.outerDetailed s.prox s.newton (E.penRes s.xk),
                    .outer s.prox s.newton (E.penRes s.xk) s.innerTol] ++
                  (subproblem E tol (Resid.norm (E.penRes s.xk)) s.xk s.newton (E.penRes s.xk)).1 ++ ev, .ok fin)
                | .inr s' => ([Event.outerDetailed s.prox s.newton (E.penRes s.xk),
                    .outer s.prox s.newton (E.penRes s.xk) s.innerTol] ++
                  (subproblem E tol (Resid.norm (E.penRes s.xk)) s.xk s.newton (E.penRes s.xk)).1 ++
                    (proxLoop E E0 fuel s').1, (proxLoop E E0 fuel s').2)) p' := by
          intro o _ hn p' h1 h2
          have e : afterInner E E0 (Resid.norm (E.penRes s.xk)) tol s o = .inl
              ([.final .maxIterations s.prox o.newton
                (E.penRes (if o.Eo < Resid.norm (E.penRes s.xk) then o.x else s.xk))],
                mkFinal E0 .maxIterations s.prox o.newton
                  (E.penRes (if o.Eo < Resid.norm (E.penRes s.xk) then o.x else s.xk))
                  (if o.Eo < Resid.norm (E.penRes s.xk) then o.x else s.xk)) := by
            unfold afterInner
            rw [if_pos hn]
          rw [e]
          exact .inr ⟨_, _, _, rfl, rfl, hpre.append (hsub tol), h1, rfl, h2⟩
        -- the number of Newton iterations that follow
        have after : ∀ o' fin', (match afterInner (E.limited P N) E0 (Resid.norm (E.penRes s.xk)) tol s o' with
              | .inl (_, fin) => (.ok fin : Except Err (Final K nz nl nv))
              | .inr s' => (proxLoop (E.limited P N) E0 fuel' s').2) = .ok fin' →
            s.prox ≤ fin'.out.proxIters ∧ o'.newton ≤ fin'.out.newtonIters := by
          intro o' fin' h
          unfold afterInner at h
          by_cases h1 : (E.limited P N).opts.maxNewtonIters ≤ (o'.newton : Int)
          · rw [if_pos h1] at h; cases h; exact ⟨Nat.le_refl _, Nat.le_refl _⟩
          · rw [if_neg h1] at h
            dsimp only at h
            revert h
            generalize (if (E.limited P N).opts.checkFeasibility = true then _ else _ : ExitFlag × FeasWs K nz nl nv) = w
            intro h
            by_cases h2 : w.1 = .success
            · rw [if_neg (by rw [h2]; simp)] at h
              have := proxLoop_counts h
              exact ⟨Nat.le_of_succ_le this.1, this.2⟩
            · rw [if_pos h2] at h
              cases h; exact ⟨Nat.le_refl _, Nat.le_refl _⟩
        rcases hq with hq | ⟨o, h1, h2, h3, h4⟩
        · rw [hq]
          cases hr : (subproblem E tol (Resid.norm (E.penRes s.xk)) s.xk s.newton (E.penRes s.xk)).2 with
          | error e => exact .inl rfl
          | ok o =>
            dsimp only
            by_cases hn : E.opts.maxNewtonIters ≤ (o.newton : Int)
            · refine limit o hr hn _ ?_ ?_
              · split <;> exact ⟨_, rfl⟩
              · intro fin' h
                refine after o fin' ?_
                revert h
                generalize afterInner (E.limited P N) E0 (Resid.norm (E.penRes s.xk)) tol s o = w
                rcases w with ⟨_, _⟩ | _ <;> exact id
            · have hn' : ¬N ≤ (o.newton : Int) := fun h => hn (Int.le_trans hN h)
              have e : afterInner (E.limited P N) E0 (Resid.norm (E.penRes s.xk)) tol s o =
                  afterInner E E0 (Resid.norm (E.penRes s.xk)) tol s o := by
                unfold afterInner
                rw [if_neg hn, if_neg (show ¬(E.limited P N).opts.maxNewtonIters ≤ (o.newton : Int) from hn')]
                rfl
              rw [e]
              cases hw : afterInner E E0 (Resid.norm (E.penRes s.xk)) tol s o with
              | inl w => exact .inl rfl
              | inr s' =>
                dsimp only
                rcases ih fuel' s' (by omega) with h | ⟨fin, pre, rk, g1, g2, g3, ⟨w, g4⟩, g5, g6⟩
                · rw [h]; exact .inl rfl
                · refine .inr ⟨fin, _, rk, g1, g2, (hpre.append (hsub tol)).append g3, ⟨w, ?_⟩, ?_, g6⟩
                  · rw [← g4]; simp only [List.append_assoc]
                  · rw [g5]; simp only [List.append_assoc]
        · rw [h1]
          dsimp only
          refine limit o h1 h2 _ ?_ ?_
          · obtain ⟨w, hw⟩ := h3
            rw [← hw]
            split
            · exact ⟨w, by simp only [List.append_assoc]⟩
            · split
              · exact ⟨w ++ _, by simp only [List.append_assoc]; rfl⟩
              · exact ⟨w ++ _, by simp only [List.append_assoc]; rfl⟩
          · intro fin' h
            cases hr : (subproblem (E.limited P N) tol (Resid.norm (E.penRes s.xk)) s.xk s.newton
              (E.penRes s.xk)).2 with
            | error e => rw [hr] at h; cases h
            | ok o' =>
              rw [hr] at h
              dsimp only at h
              have := after o' fin' (by
                revert h
                generalize afterInner (E.limited P N) E0 (Resid.norm (E.penRes s.xk)) tol s o' = w
                rcases w with ⟨_, _⟩ | _ <;> exact id)
              exact ⟨this.1, Nat.le_trans (h4 o' hr) this.2⟩

theorem solve_longer {ws : FeasWs K nz nl nv} {z : Vec K nz} {l : Vec K nl} {v : Vec K nv}
    (hP : E.opts.maxProxIters ≤ P) (hN : E.opts.maxNewtonIters ≤ N) :
    Longer (solve E ws z l v) (solve (E.limited P N) ws z l v) := by
  simp only [solve]
  rw [show saturate (Resid.norm ((E.limited P N).penRes (startPt (E.limited P N) z l v)))
      (E.limited P N).opts.innerTolMin (E.limited P N).opts.innerTolMax =
      saturate (Resid.norm (E.penRes (startPt E z l v))) E.opts.innerTolMin E.opts.innerTolMax from rfl]
  cases hsat : saturate (Resid.norm (E.penRes (startPt E z l v))) E.opts.innerTolMin E.opts.innerTolMax with
  | error e => exact .inl rfl
  | ok tol =>
    dsimp only
    rcases proxLoop_longer E P N hN (Resid.norm (E.penRes (startPt E z l v))) E.opts.maxProxIters.toNat
      P.toNat ⟨tol, startPt E z l v, onesPt E, 0, 0, E.penRes (startPt E z l v), ws⟩ (by omega) with
      h | ⟨fin, pre, rk, g1, g2, g3, ⟨w, g4⟩, g5, g6⟩
    · exact .inl (congrArg (fun p : List (Event K nz nl nv) × Except Err (Final K nz nl nv) =>
        (Event.header :: p.1, p.2)) h)
    · exact .inr ⟨fin, .header :: pre, rk, g1, g2, .cons (by intros; simp) g3, ⟨w, congrArg (Event.header :: ·) g4⟩,
        congrArg (Event.header :: ·) g5, g6⟩

end Fbstab.Core
