import Verif.Proofs.Simulation
import Verif.Proofs.CoreFacts

/-!
# The summary is printed once, at the end
-/

namespace Fbstab.Core
variable {K : Type} [Scalar K] {nz nl nv : Nat}

/-- No summary in the trace. -/
def NoFinal (es : List (Event K nz nl nv)) : Prop := ∀ f p n rk, Event.final f p n rk ∉ es

omit [Scalar K] in
theorem NoFinal.nil : NoFinal ([] : List (Event K nz nl nv)) := fun _ _ _ _ h => by cases h

omit [Scalar K] in
theorem NoFinal.append {a b : List (Event K nz nl nv)} (ha : NoFinal a) (hb : NoFinal b) :
    NoFinal (a ++ b) := fun f p n rk h => by
  rcases List.mem_append.1 h with h | h
  · exact ha _ _ _ _ h
  · exact hb _ _ _ _ h

omit [Scalar K] in
theorem NoFinal.cons {e : Event K nz nl nv} {b : List (Event K nz nl nv)}
    (he : ∀ f p n rk, Event.final f p n rk ≠ e) (hb : NoFinal b) : NoFinal (e :: b) :=
  fun f p n rk h => by
    rcases List.mem_cons.1 h with h | h
    · exact he _ _ _ _ h
    · exact hb _ _ _ _ h

theorem lineSearch_noFinal (E : Env K nz nl nv) (sigma m0 cm : K) (x xbar dx : Point K nz nl nv)
    (n : Nat) : ∀ t, NoFinal (lineSearch E sigma m0 cm x xbar dx n t).2 := by
  induction n with
  | zero => intro t; exact .nil
  | succ n ih =>
    intro t
    rw [lineSearch]
    split
    · exact .cons (by intros; simp) .nil
    · exact .cons (by intros; simp) (ih _)

theorem innerLoop_noFinal (E : Env K nz nl nv) (tol sigma Ek : K) (xbar : Point K nz nl nv)
    (fuel : Nat) : ∀ (i : Nat) (t Eo : K) (x : Point K nz nl nv) (newton : Nat) (buf : Vec K 5)
    (rk : Resid K nz nl nv), NoFinal (innerLoop E tol sigma Ek xbar fuel i t Eo x newton buf rk).1 := by
  induction fuel with
  | zero => intros; exact .nil
  | succ fuel ih =>
    intro i t Eo x newton buf rk
    simp only [innerLoop]
    split
    · exact .cons (by intros; simp) (.cons (by intros; simp) .nil)
    · split
      · exact .cons (by intros; simp) .nil
      · split
        · exact .cons (by intros; simp) .nil
        · exact .cons (by intros; simp) .nil
        · exact .cons (by intros; simp) (.append (lineSearch_noFinal _ _ _ _ _ _ _ _ _) (ih _ _ _ _ _ _ _))

/-- The trace of a run: the summary is the last event of a run that returns and there is none in a
run that throws. -/
def Summary (p : List (Event K nz nl nv) × Except Err (Final K nz nl nv)) : Prop :=
  match p.2 with
  | .error _ => NoFinal p.1
  | .ok fin => ∃ pre rk, p.1 = pre ++ [.final fin.out.eflag fin.out.proxIters fin.out.newtonIters rk] ∧
      NoFinal pre ∧ fin.out.residual = Resid.norm rk

theorem proxLoop_summary (E : Env K nz nl nv) (E0 : K) (fuel : Nat) :
    ∀ s : Outer K nz nl nv, Summary (proxLoop E E0 fuel s) := by
  induction fuel with
  | zero =>
    intro s
    exact ⟨[], s.rk, rfl, .nil, rfl⟩
  | succ fuel ih =>
    intro s
    have hpre : NoFinal [Event.outerDetailed s.prox s.newton (E.penRes s.xk),
        .outer s.prox s.newton (E.penRes s.xk) s.innerTol] :=
      .cons (by intros; simp) (.cons (by intros; simp) .nil)
    simp only [proxLoop]
    split
    · exact ⟨[_], _, rfl, .cons (by intros; simp) .nil, rfl⟩
    · split
      · exact hpre
      · rename_i tol _
        have hq : NoFinal (subproblem E tol (Resid.norm (E.penRes s.xk)) s.xk s.newton
          (E.penRes s.xk)).1 := innerLoop_noFinal _ _ _ _ _ _ _ _ _ _ _ _ _
        split
        · exact hpre.append hq
        · rename_i o ho
          have hI : afterInner E E0 (Resid.norm (E.penRes s.xk)) tol s o =
            afterInner E E0 (Resid.norm (E.penRes s.xk)) tol s o := rfl
          by_cases hn : E.opts.maxNewtonIters ≤ (o.newton : Int)
          · simp only [afterInner, if_pos hn]
            exact ⟨_, _, rfl, hpre.append hq, rfl⟩
          · simp only [afterInner, if_neg hn]
            generalize (if E.opts.checkFeasibility = true then _ else _ : ExitFlag × FeasWs K nz nl nv)
              = f
            by_cases hf : f.1 = .success
            · simp only [hf, ne_eq, not_true_eq_false, if_false]
              have h := ih ⟨tol, o.x, E.axpy (-1) s.xk o.x, s.prox + 1, o.newton, o.rk, f.2⟩
              unfold Summary at h ⊢
              dsimp only
              split
              · rename_i e he
                rw [he] at h
                exact (hpre.append hq).append h
              · rename_i fin he
                rw [he] at h
                obtain ⟨pre, rk, h1, h2, h3⟩ := h
                refine ⟨_, rk, ?_, (hpre.append hq).append h2, h3⟩
                rw [h1]
                simp only [List.append_assoc]
            · simp only [hf, ne_eq, not_false_eq_true, if_true]
              exact ⟨_, _, rfl, hpre.append hq, rfl⟩

theorem solve_summary (E : Env K nz nl nv) (ws : FeasWs K nz nl nv) (z : Vec K nz) (l : Vec K nl)
    (v : Vec K nv) : Summary (solve E ws z l v) := by
  simp only [solve]
  split
  · exact NoFinal.nil
  · rename_i tol _
    have h := proxLoop_summary E (Resid.norm (E.penRes (startPt E z l v))) E.opts.maxProxIters.toNat
      ⟨tol, startPt E z l v, onesPt E, 0, 0, E.penRes (startPt E z l v), ws⟩
    unfold Summary at h ⊢
    dsimp only
    split
    · rename_i e he
      rw [he] at h
      exact .cons (by intros; simp) h
    · rename_i fin he
      rw [he] at h
      obtain ⟨pre, rk, h1, h2, h3⟩ := h
      exact ⟨.header :: pre, rk, by rw [h1]; rfl, .cons (by intros; simp) h2, h3⟩

theorem render_off {o : Params K} (h : o.displayLevel = .off) (c : K)
    (es : List (Event K nz nl nv)) : ∀ r, render o c r es = [] := by
  induction es with
  | nil => intro r; rfl
  | cons e es ih => intro r; cases e <;> simp [render, h, ih, Display.toNat]

theorem render_final {o : Params K} (h : o.displayLevel = .final) (c : K)
    (es : List (Event K nz nl nv)) (hn : NoFinal es) : ∀ r, render o c r es = [] := by
  induction es with
  | nil => intro r; rfl
  | cons e es ih =>
    intro r
    have hes : NoFinal es := fun f p n rk h => hn f p n rk (List.mem_cons_of_mem _ h)
    cases e
    case final => exact absurd (List.mem_cons_self ..) (hn _ _ _ _)
    all_goals simp [render, h, ih hes]

end Fbstab.Core
