import Verif.Props.History
import Verif.Props.Uninitialised
import Verif.Props.InfiniteExamples

/-!
# C09 fails for FBstabDense after a call with infinite bounds

A feasibility check leaves the vector `b` of the problem in a workspace that the first check of the
next call multiplies by zero and adds to `A z`.
-/

namespace Fbstab

namespace Core
variable {K : Type} [Scalar K] {nz nl nv : Nat}

/-- A check leaves `b` behind. -/
theorem check_tv (d : QPOps K nz nl nv) (x : Point K nz nl nv) (tol : K) (ws : FeasWs K nz nl nv) :
    (checkFeasibility d x tol ws).2.tv = d.axpyb 1 (Vec.const 0) := rfl

theorem proxWs_tv {E : Env K nz nl nv} (hc : E.opts.checkFeasibility = true)
    (hm : E.opts.maxInnerIters < E.opts.maxNewtonIters) (hi : 0 ≤ E.opts.maxInnerIters) (E0 : K)
    (fuel : Nat) : ∀ (s : Outer K nz nl nv) (fin : Final K nz nl nv),
    (s.ws.tv = E.ops.axpyb 1 (Vec.const 0) ∨ (s.newton = 0 ∧ s.prox = 0 ∧ fuel ≠ 0)) →
    (proxLoop E E0 fuel s).2 = .ok fin → (fin.out.eflag ≠ .success ∨ fin.out.proxIters ≠ 0) →
    (proxWs E E0 fuel s).tv = E.ops.axpyb 1 (Vec.const 0) := by
  induction fuel with
  | zero =>
    intro s fin hs h hf
    rcases hs with hs | ⟨-, -, h⟩
    · exact hs
    · exact absurd rfl h
  | succ fuel ih =>
    intro s fin hs h hf
    simp only [proxLoop] at h
    simp only [proxWs]
    by_cases hst : Resid.norm (E.penRes s.xk) ≤ E.comboTol ∨ normPt s.dx ≤ E.opts.stallTol
    · rw [if_pos hst] at h ⊢
      cases h
      rcases hs with hs | ⟨-, hp, -⟩
      · exact hs
      · rcases hf with hf | hf
        · exact absurd rfl hf
        · exact absurd hp hf
    · rw [if_neg hst] at h ⊢
      cases hsat : saturate (s.innerTol * E.opts.delta) E.opts.innerTolMin
        (Resid.norm (E.penRes s.xk)) with
      | error e => simp only [hsat] at h; cases h
      | ok tol =>
        simp only [hsat] at h ⊢
        cases hq : (subproblem E tol (Resid.norm (E.penRes s.xk)) s.xk s.newton (E.penRes s.xk)).2 with
        | error e => simp only [hq] at h; cases h
        | ok o =>
          simp only [hq] at h ⊢
          have hnew : s.newton = 0 → (o.newton : Int) ≤ E.opts.maxInnerIters := by
            intro h0
            obtain ⟨o', h1, h2⟩ := subproblem_ok hq
            have := (innerLoop_facts _ _ _ _ _ _ _ _ _ _ _ _ _ _ h1).le
            subst h2
            show (o'.newton : Int) ≤ _
            omega
          by_cases hn : E.opts.maxNewtonIters ≤ (o.newton : Int)
          · have hs' : s.ws.tv = E.ops.axpyb 1 (Vec.const 0) := by
              rcases hs with hs | ⟨h0, -⟩
              · exact hs
              · have := hnew h0; omega
            simp only [afterInner, if_pos hn, afterWs]
            exact hs'
          · by_cases hfl : flagOf (checkFeasibility E.ops (E.axpy (-1) s.xk o.x) E.opts.infeasTol s.ws).1 ≠
                .success
            · simp only [afterInner, if_neg hn, hc, if_true, if_pos hfl, afterWs]
              rfl
            · simp only [afterInner, if_neg hn, hc, if_true, if_neg hfl] at h ⊢
              exact ih _ fin (.inl rfl) h hf

theorem solveWs_tv {E : Env K nz nl nv} (hc : E.opts.checkFeasibility = true)
    (hm : E.opts.maxInnerIters < E.opts.maxNewtonIters) (hi : 0 ≤ E.opts.maxInnerIters)
    (hp : 1 ≤ E.opts.maxProxIters) {ws : FeasWs K nz nl nv} {z : Vec K nz} {l : Vec K nl}
    {v : Vec K nv} {fin : Final K nz nl nv} (h : (solve E ws z l v).2 = .ok fin)
    (hf : fin.out.eflag ≠ .success ∨ fin.out.proxIters ≠ 0) :
    (solveWs E ws z l v).tv = E.ops.axpyb 1 (Vec.const 0) := by
  simp only [solve] at h
  simp only [solveWs]
  cases hs : saturate (Resid.norm (E.penRes (startPt E z l v))) E.opts.innerTolMin
    E.opts.innerTolMax with
  | error e => simp only [hs] at h; cases h
  | ok tol =>
    simp only [hs] at h ⊢
    exact proxWs_tv hc hm hi _ _ _ fin (.inr ⟨rfl, rfl, by omega⟩) h hf

end Core

theorem XReal.zero_mul_not_finite {a : XReal} (h : a = .nan ∨ a = XReal.inf ∨ a = XReal.negInf) :
    (0 : XReal) * a = .nan := by
  rcases h with rfl | rfl | rfl
  · rfl
  · show XReal.mul _ _ = _
    simp [XReal.mul, XReal.inf]
  · show XReal.mul _ _ = _
    simp [XReal.mul, XReal.negInf]

theorem Vec.maxCoeff_nan {n : Nat} (x : Vec XReal (n + 1)) (h : x 0 = .nan) : x.maxCoeff = .nan := by
  simp only [Vec.maxCoeff, h]
  have : ∀ (k : Nat) (f : Fin k → XReal), Fin.foldl k (fun acc i => cmax acc (f i)) XReal.nan = XReal.nan := by
    intro k
    induction k with
    | zero => intro f; rfl
    | succ k ih =>
      intro f
      rw [Fin.foldl_succ]
      have e : cmax XReal.nan (f 0) = XReal.nan := by
        unfold cmax
        rw [if_neg XReal.nan_lt]
      rw [e]
      exact ih _
  exact this n _

/-- A check that finds NaN or an infinity in the first place of the workspace is blind to dual
infeasibility. -/
theorem checkFeasibility_blind {nz nl nv : Nat} (d : DenseData XReal nz nl (nv + 1))
    (x : Point XReal nz nl (nv + 1)) (tol : XReal) (ws : FeasWs XReal nz nl (nv + 1))
    (hw : ws.tv 0 = .nan ∨ ws.tv 0 = XReal.inf ∨ ws.tv 0 = XReal.negInf) :
    (checkFeasibility d.ops x tol ws).1 = .feasible ∨
      (checkFeasibility d.ops x tol ws).1 = .primalInfeasible := by
  have e : (d.ops.gemvA x.z 1 0 ws.tv).maxCoeff = XReal.nan := by
    apply Vec.maxCoeff_nan
    simp only [DenseData.ops, DenseData.gemvA, Vec.get_add, Vec.get_smul]
    rw [XReal.zero_mul_not_finite hw, XReal.add_nan]
  simp only [checkFeasibility, e]
  have h : decide ((XReal.nan : XReal) ≤ x.z.lpNormInf * tol) = false := decide_eq_false XReal.nan_le
  rw [h]
  simp only [Bool.false_and, Bool.not_false, Bool.and_true, Bool.not_true, Bool.and_false]
  split <;> rename_i h1
  · exact .inl rfl
  · simp only [Bool.not_eq_true] at h1
    simp [h1]

theorem Core.solve_blind {K : Type} [Scalar K] {nz nl nv : Nat} {E : Core.Env K nz nl nv}
    {ws : FeasWs K nz nl nv}
    (hw : ∀ x, (checkFeasibility E.ops x E.opts.infeasTol ws).1 = .feasible ∨
      (checkFeasibility E.ops x E.opts.infeasTol ws).1 = .primalInfeasible)
    {z : Vec K nz} {l : Vec K nl} {v : Vec K nv} {fin : Core.Final K nz nl nv}
    (h : (Core.solve E ws z l v).2 = .ok fin)
    (h2 : fin.out.eflag = .dualInfeasible ∨ fin.out.eflag = .primalDualInfeasible) :
    fin.out.proxIters ≠ 0 := by
  intro h3
  obtain ⟨tol, k, s, -, hs, hr⟩ := Core.solve_returned h
  have hk := hs.prox
  have hpr : s.prox = 0 → k = 0 := fun h => by
    have : (Core.start E ws (Core.startPt E z l v) tol).prox = 0 := rfl
    omega
  rcases hr with ⟨-, hx⟩ | ⟨-, rfl⟩
  · cases hx with
    | success => rcases h2 with h2 | h2 <;> cases h2
    | newton => rcases h2 with h2 | h2 <;> cases h2
    | @infeasible _ o hi hn hck hfl =>
      have hk0 := hpr h3
      subst hk0
      cases hs
      have hx := hw (E.axpy (-1) (Core.start E ws (Core.startPt E z l v) tol).xk o.x)
      replace hx : Core.check E (Core.start E ws (Core.startPt E z l v) tol) o = .feasible ∨
        Core.check E (Core.start E ws (Core.startPt E z l v) tol) o = .primalInfeasible := hx
      replace h2 : Core.flagOf (Core.check E (Core.start E ws (Core.startPt E z l v) tol) o) =
          .dualInfeasible ∨ Core.flagOf (Core.check E (Core.start E ws (Core.startPt E z l v) tol) o) =
          .primalDualInfeasible := h2
      rcases hx with e | e <;> rw [e] at h2 <;> rcases h2 with h2 | h2 <;> cases h2
  · rcases h2 with h2 | h2 <;> cases h2

theorem FBstabDense.blind {nz nl m : Nat} (mem : AlgMem XReal _ nz nl (m + 1) (denseSolver XReal nz nl (m + 1)))
    (hw : mem.feas.ws.tv 0 = .nan ∨ mem.feas.ws.tv 0 = XReal.inf ∨ mem.feas.ws.tv 0 = XReal.negInf)
    (p : DenseProblem XReal) (x : CallerVar XReal) (out : SolverOut XReal)
    (h : ((⟨nz, nl, m + 1, mem⟩ : FBstabDense XReal).solve p x).result = .ok out)
    (hd : out.eflag = .dualInfeasible ∨ out.eflag = .primalDualInfeasible) : out.proxIters ≠ 0 := by
  obtain ⟨-, -, fin2, k2, -, rfl, -⟩ := FBstabDense.returned h
  exact Core.solve_blind (E := Core.env (denseSem XReal nz nl (m + 1)) (p.toData nz nl (m + 1))
    (p.toData nz nl (m + 1)).ops mem.opts) (ws := mem.feas.ws)
    (fun y => checkFeasibility_blind (p.toData nz nl (m + 1)) y _ _ hw) k2 hd

theorem XReal.axpyb_not_finite {nz nl m : Nat} (d : DenseData XReal nz nl (m + 1))
    (h : d.b 0 = .nan ∨ d.b 0 = XReal.inf ∨ d.b 0 = XReal.negInf) :
    d.ops.axpyb 1 (Vec.const 0) 0 = d.b 0 := by
  simp only [DenseData.ops, DenseData.axpyb, Vec.get_add, Vec.get_smul]
  rw [show (Vec.const (0 : XReal) : Vec XReal (m + 1)) 0 = 0 from Vec.get_ofFn _ _]
  rcases h with e | e | e <;> rw [e]
  · rw [XReal.mul_nan, XReal.add_nan]
  · show XReal.add (.val 0) (XReal.mul (.val 1) (.val ⊤)) = .val ⊤
    simp [XReal.mul, XReal.add]
  · show XReal.add (.val 0) (XReal.mul (.val 1) (.val ⊥)) = .val ⊥
    simp [XReal.mul, XReal.add]

theorem FBstabDense.blind_options {nz nl m : Nat} (os : List (Params XReal)) :
    ∀ (mem : AlgMem XReal _ nz nl (m + 1) (denseSolver XReal nz nl (m + 1)))
    (_ : mem.feas.ws.tv 0 = .nan ∨ mem.feas.ws.tv 0 = XReal.inf ∨ mem.feas.ws.tv 0 = XReal.negInf)
    (p : DenseProblem XReal) (x : CallerVar XReal) (out : SolverOut XReal)
    (_ : (((⟨nz, nl, m + 1, mem⟩ : FBstabDense XReal).after (os.map .updateOptions)).solve p x).result =
      .ok out)
    (_ : out.eflag = .dualInfeasible ∨ out.eflag = .primalDualInfeasible), out.proxIters ≠ 0 := by
  induction os with
  | nil => exact FBstabDense.blind
  | cons o os ih =>
    intro mem hw p x out h hd
    obtain ⟨o', ho⟩ := C01_validation_total_xreal o
    have e : (DenseCall.updateOptions o).apply (⟨nz, nl, m + 1, mem⟩ : FBstabDense XReal) =
        ⟨nz, nl, m + 1, { mem with opts := o' }⟩ := by
      simp only [DenseCall.apply, FBstabDense.updateOptions, AlgMem.updateParameters, ho]
    rw [List.map_cons, FBstabDense.after, List.foldl_cons, e] at h
    exact ih { mem with opts := o' } hw p x out h hd

/-- An infinite or NaN first bound is remembered.  Suppose `Solve` of an FBstabDense object was called
with a problem whose first bound `b(0)` is infinite or NaN, with the feasibility check switched on and
`max_inner_iters < max_newton_iters`, and returned anything but SUCCESS after zero proximal
iterations.  Then, whatever (finite) problem and guess the next call of `Solve` on the object is
given, and whatever options are set before, it does not report dual infeasibility after zero proximal
iterations.  (`maxCoeff` compares
from left to right; with one inequality the order plays no role.) -/
theorem C09_blind_dense (s : FBstabDense XReal) (hp : 1 ≤ s.options.maxProxIters)
    (hi : 0 ≤ s.options.maxInnerIters)
    (hc : s.options.checkFeasibility = true) (hm : s.options.maxInnerIters < s.options.maxNewtonIters)
    (p : DenseProblem XReal) (x : CallerVar XReal) (b : XReal) (hb : p.b.data[0]? = some b)
    (hn : b = .nan ∨ b = XReal.inf ∨ b = XReal.negInf) (out : SolverOut XReal)
    (h : (s.solve p x).result = .ok out) (hf : out.eflag ≠ .success ∨ out.proxIters ≠ 0)
    (os : List (Params XReal)) (p2 : DenseProblem XReal) (x2 : CallerVar XReal) (out2 : SolverOut XReal)
    (h2 : (((s.solve p x).solver.after (os.map .updateOptions)).solve p2 x2).result = .ok out2)
    (hd : out2.eflag = .dualInfeasible ∨ out2.eflag = .primalDualInfeasible) :
    out2.proxIters ≠ 0 := by
  obtain ⟨nz, nl, nv, mem⟩ := s
  obtain ⟨f1, y1, fin, k1, -, rfl, -⟩ := FBstabDense.returned h
  have hnv : nv = p.b.data.size := f1.b.symm
  have hpos : 0 < p.b.data.size := by
    rcases Nat.eq_zero_or_pos p.b.data.size with e | e
    · rw [Array.getElem?_eq_none (by omega)] at hb; cases hb
    · exact e
  obtain ⟨m, rfl⟩ : ∃ m, nv = m + 1 := ⟨nv - 1, by omega⟩
  have hw := FBstabDense.solve_ws (s := ⟨nz, nl, m + 1, mem⟩) f1 y1
  rw [FBstabDense.solve_fits (s := ⟨nz, nl, m + 1, mem⟩) f1] at h2
  have ht := Core.solveWs_tv (E := Core.env (denseSem XReal nz nl (m + 1)) (p.toData nz nl (m + 1))
    (p.toData nz nl (m + 1)).ops mem.opts) hc hm hi hp k1 hf
  have hb0 : (p.toData nz nl (m + 1)).b 0 = b := by
    simp only [DenseProblem.toData, DVec.toVec, Vec.get_ofFn]
    simp [hb]
  have e := (congrArg (fun w : FeasWs XReal nz nl (m + 1) => w.tv 0) hw).trans
    (congrArg (fun w : Vec XReal (m + 1) => w 0) ht)
  replace e := e.trans (XReal.axpyb_not_finite (p.toData nz nl (m + 1)) (by rw [hb0]; exact hn))
  rw [hb0] at e
  clear ht hw k1 h f1 hf hc hm hi hp
  revert h2 e
  simp only [FBstabDense.problem]
  generalize (runSolve (p.toData nz nl (m + 1)) (p.toData nz nl (m + 1)).ops mem x).solver = mem2
  intro h2 e
  exact FBstabDense.blind_options os mem2 (by rw [e]; exact hn) p2 x2 out2 h2 hd

/-- One call with an infinite bound: `min z s.t. z <= inf`, from zero. -/
noncomputable def infProblem : DenseProblem XReal := { fallQP.toDense.up with b := infVec }

/-- C09 fails for FBstabDense after infinite bounds: there are two histories with the same last
options, one of which contains a call with an infinite bound, such that two objects constructed in
the same memory, after these histories, do different things when they are asked to solve the same
finite problem from the same finite guess: the first reports dual infeasibility after the first
subproblem, the second does not. -/
theorem C09_not_dense : ∃ (s : FBstabDense XReal) (h h' : List (DenseCall XReal))
    (p : DenseProblem ℝ) (x : CallerVar ℝ),
    FBstabDense.new .zeros 1 0 1 = .ok s ∧ DenseCall.lastOptions h = DenseCall.lastOptions h' ∧
    (∃ out, ((s.after h).solve p.up x.up).result = .ok out ∧ out.eflag = .dualInfeasible ∧
      out.proxIters = 0) ∧
    ¬(∃ out, ((s.after h').solve p.up x.up).result = .ok out ∧ out.eflag = .dualInfeasible ∧
      out.proxIters = 0) := by
  have hnew := FBstabDense.new_ok (K := XReal) .zeros (nz := 1) (nl := 0) (nv := 1) (by norm_num)
    (by norm_num) (by norm_num [intLimit])
  have hnewR := FBstabDense.new_ok (K := ℝ) .zeros (nz := 1) (nl := 0) (nv := 1) (by norm_num)
    (by norm_num) (by norm_num [intLimit])
  refine ⟨_, [.updateOptions (Params.up Params.defaults)],
    [.updateOptions oneStepOptions.up, .solve infProblem flatGuess.up,
      .updateOptions (Params.up Params.defaults)], flatQP.toDense, flatGuess, hnew, rfl, ?_, ?_⟩
  · obtain ⟨-, -, -, out, h1, h2, h3⟩ := C23_false_alarm .zeros
    have hz : ∀ n, (Vec.const 0 : Vec XReal n) = Vec.up (Vec.const 0) := by
      intro n; rw [up_zero, Vec.const_up]
    have := C49_history_dense .zeros .zeros 1 0 1 _ _ hnewR hnew
      (fun a b c => ⟨⟨_, hz _⟩, ⟨_, hz _⟩, ⟨_, hz _⟩⟩) [.updateOptions Params.defaults]
      (by simp [DenseCall.YWritable]) flatQP.toDense flatGuess (guessOf_writable _ _ _ _)
    have e : FBstabDense.after (⟨1, 0, 1, AlgMem.fresh (ls := denseSolver ℝ 1 0 1)
        { DenseJunk.zeros.lin 1 0 1 with alpha := 0.95, data := none } (DenseJunk.zeros.feas 1 0 1)⟩ :
          FBstabDense ℝ) [.updateOptions Params.defaults] = flatSolver .zeros := by
      simp only [FBstabDense.after, List.foldl, DenseCall.apply, FBstabDense.updateOptions,
        AlgMem.updateParameters, C02_inRange_unchanged _ defaults_inRange]
      rfl
    refine ⟨out.up, ?_, h2, h3⟩
    refine this.1.trans ?_
    rw [e, h1]
    rfl
  · rintro ⟨out, h1, h2, h3⟩
    have e : (DenseCall.updateOptions oneStepOptions.up).apply
        (⟨1, 0, 1, AlgMem.fresh (ls := denseSolver XReal 1 0 1)
        { DenseJunk.zeros.lin 1 0 1 with alpha := 0.95, data := none } (DenseJunk.zeros.feas 1 0 1)⟩ :
          FBstabDense XReal) = oneStepDense .zeros := by
      simp only [DenseCall.apply, FBstabDense.updateOptions, AlgMem.updateParameters,
        Params.up_validate, C02_inRange_unchanged _ oneStepOptions_inRange]
      rfl
    obtain ⟨out1, k1, k2⟩ := infDense_returns .zeros infProblem rfl
    refine C09_blind_dense (oneStepDense .zeros) (show (1 : Int) ≤ 1 by norm_num)
      (show (0 : Int) ≤ 1 by norm_num) rfl (show (1 : Int) < 200 by norm_num) infProblem flatGuess.up
      XReal.inf rfl (.inr (.inl rfl)) out1 k1 (.inl k2) [Params.up Params.defaults] flatQP.toDense.up
      flatGuess.up out ?_ (.inl h2) h3
    rw [FBstabDense.after, List.foldl_cons, e] at h1
    exact h1

/-- C09_finite_dense: an object that has solved a problem before, and a fresh one. -/
example : ∃ s : FBstabDense XReal, FBstabDense.new .zeros 1 0 1 = .ok s ∧
    ((s.after ([.solve fallQP.toDense flatGuess].map DenseCall.up)).solve flatQP.toDense.up flatGuess.up).SameAs
      (s.solve flatQP.toDense.up flatGuess.up) := by
  have hnew := FBstabDense.new_ok (K := XReal) .zeros (nz := 1) (nl := 0) (nv := 1) (by norm_num)
    (by norm_num) (by norm_num [intLimit])
  have hz : ∀ n, (Vec.const 0 : Vec XReal n) = Vec.up (Vec.const 0) := by
    intro n; rw [up_zero, Vec.const_up]
  exact ⟨_, hnew, C09_finite_dense .zeros .zeros 1 0 1 _ _ hnew hnew
    (fun a b c => ⟨⟨_, hz _⟩, ⟨_, hz _⟩, ⟨_, hz _⟩⟩) (fun a b c => ⟨⟨_, hz _⟩, ⟨_, hz _⟩, ⟨_, hz _⟩⟩)
    [.solve fallQP.toDense flatGuess] [] rfl
    (by simpa [DenseCall.YWritable] using guessOf_writable _ _ _ _) (by simp) flatQP.toDense flatGuess
    (guessOf_writable _ _ _ _)⟩

end Fbstab
