import Verif.Props.Options
import Verif.Proofs.OptionsCongr

/-!
# C04 - C08, C12: limits, flags and what the output means, in any arithmetic

Every theorem here is for an arbitrary `Scalar K` with no laws, except `0 == 0` for `FBstabMpc`
(`MpcData::gemvA` with `b = 0.0` must clear its workspace).
-/

namespace Fbstab
namespace Core
variable {K : Type} [Scalar K] {nz nl nv : Nat} {E : Env K nz nl nv} {ws : FeasWs K nz nl nv}
  {x : Point K nz nl nv} {fin : Final K nz nl nv}

theorem Returned.limits (h : Returned E ws x fin) (hl : E.opts.Limits) :
    (fin.out.proxIters : Int) ≤ E.opts.maxProxIters ∧
    (fin.out.newtonIters : Int) ≤ E.opts.maxNewtonIters ∧
    (fin.out.newtonIters : Int) ≤ E.opts.maxInnerIters * (fin.out.proxIters + 1) := by
  obtain ⟨tol, k, s, -, hs, h⟩ := h.run
  have hp := hs.prox
  obtain ⟨-, n2, n3⟩ := hs.newton
  have m1 := hl.maxProxIters
  have m2 := hl.maxNewtonIters
  have m3 := hl.maxInnerIters
  simp only [start, Nat.zero_add] at hp n2 n3
  have c3 : ((k * E.opts.maxInnerIters.toNat : Nat) : Int) = E.opts.maxInnerIters * k := by
    rw [Int.natCast_mul, Int.toNat_of_nonneg (by omega)]; ac_rfl
  have c4 : E.opts.maxInnerIters * ((s.prox : Int) + 1) =
      E.opts.maxInnerIters * k + E.opts.maxInnerIters := by rw [hp, Int.mul_add, Int.mul_one]
  rcases h with ⟨hk, h⟩ | ⟨hk, rfl⟩
  · cases h with
    | success _ => simp only [mkFinal]; omega
    | newton hi _ _ _ =>
      have := hi.newton
      simp only [mkFinal]
      omega
    | infeasible hi _ _ _ =>
      have := hi.newton
      simp only [mkFinal]
      omega
  · simp only [mkFinal]; omega

/-- In a run that ends at the proximal limit the Newton limit was not reached. -/
theorem Steps.newton_below {k : Nat} {s s' : Outer K nz nl nv} (h : Steps E k s s') (hk : 0 < k) :
    ¬(E.opts.maxNewtonIters ≤ (s'.newton : Int)) := by
  cases h with
  | refl => omega
  | tail _ h2 => rw [h2.eq]; exact h2.below

theorem Returned.flag (h : Returned E ws x fin) :
    fin.out.eflag ≠ .divergence ∧
    ((fin.out.eflag = .primalInfeasible ∨ fin.out.eflag = .dualInfeasible ∨
      fin.out.eflag = .primalDualInfeasible) → E.opts.checkFeasibility = true) ∧
    (fin.out.eflag = .maxIterations → E.opts.maxNewtonIters ≤ (fin.out.newtonIters : Int) ∨
      E.opts.maxProxIters ≤ (fin.out.proxIters : Int)) := by
  obtain ⟨tol, k, s, -, hs, h⟩ := h.run
  have hp := hs.prox
  simp only [start, Nat.zero_add] at hp
  rcases h with ⟨hk, h⟩ | ⟨hk, rfl⟩
  · cases h with
    | success _ => simp [mkFinal]
    | newton hi hn x hx => simp [mkFinal, hn]
    | infeasible hi hn hc hf =>
      simp only [mkFinal]
      cases hc' : check E s _ <;> simp [flagOf, hc, hc'] at hf ⊢
  · simp only [mkFinal]
    refine ⟨by simp, by simp, fun _ => .inr ?_⟩
    omega

theorem Returned.initialResidual (h : Returned E ws x fin) :
    fin.out.initialResidual = residualNorm E.ops E.opts.alpha x := by
  obtain ⟨tol, k, s, -, hs, h⟩ := h.run
  rcases h with ⟨hk, h⟩ | ⟨hk, rfl⟩
  · cases h <;> rfl
  · rfl

/-- The residual of a returned point, except at the proximal limit and in infeasible exits. -/
theorem Returned.residual (h : Returned E ws x fin) (hl : 1 ≤ E.opts.maxProxIters)
    (hf : fin.out.eflag = .success ∨
      (fin.out.eflag = .maxIterations ∧ E.opts.maxNewtonIters ≤ (fin.out.newtonIters : Int))) :
    fin.out.residual = residualNorm E.ops E.opts.alpha fin.x := by
  obtain ⟨tol, k, s, -, hs, h⟩ := h.run
  rcases h with ⟨hk, h⟩ | ⟨hk, rfl⟩
  · cases h with
    | success _ => rfl
    | newton hi hn x hx => rfl
    | infeasible hi hn hc hf' =>
      exfalso
      simp only [mkFinal] at hf
      cases hc' : check E s _ <;> rw [hc'] at hf hf' <;> simp [flagOf] at hf hf'
  · exfalso
    simp only [mkFinal] at hf
    rcases hf with hf | ⟨-, hf⟩
    · cases hf
    · exact hs.newton_below (by omega) hf

/-- In every case the residual is that of some point the solver looked at. -/
theorem Returned.residual_exists (h : Returned E ws x fin) (hl : E.opts.Limits) :
    ∃ x', fin.out.residual = residualNorm E.ops E.opts.alpha x' := by
  obtain ⟨tol, k, s, -, hs, h⟩ := h.run
  have inner : ∀ {s : Outer K nz nl nv} {tol o}, Inner E s tol o → ∃ x', o.rk = E.penRes x' := by
    intro s tol o h
    obtain ⟨o', h', rfl⟩ := subproblem_ok h.sub
    have m3 := hl.maxInnerIters
    rcases (innerLoop_Eo _ _ _ _ _ _ _ _ _ _ _ _ _ _ h').2 with ⟨-, h⟩ | h
    · omega
    · exact h
  rcases h with ⟨hk, h⟩ | ⟨hk, rfl⟩
  · cases h with
    | success _ => exact ⟨_, rfl⟩
    | newton hi hn x hx => exact ⟨_, rfl⟩
    | infeasible hi hn hc hf' =>
      obtain ⟨x', e⟩ := inner hi
      exact ⟨x', congrArg Resid.norm e⟩
  · cases hs with
    | refl => exact ⟨x, rfl⟩
    | tail _ h2 =>
      obtain ⟨x', e⟩ := inner h2.toInner
      rw [h2.eq]
      exact ⟨x', congrArg Resid.norm e⟩

/-- What SUCCESS means. -/
theorem Returned.success (h : Returned E ws x fin) (hf : fin.out.eflag = .success) :
    fin.out.residual ≤ stoppingTol E.ops E.opts ∨
    (fin.out.proxIters = 0 ∧ onesNorm K nz nl nv ≤ E.opts.stallTol) ∨
    ∃ k s tol, fin.out.proxIters = k + 1 ∧ stepNorm fin.x s.xk ≤ E.opts.stallTol ∧
      saturate (Resid.norm (E.penRes x)) E.opts.innerTolMin E.opts.innerTolMax = .ok tol ∧
      Steps E k (start E ws x tol) s := by
  obtain ⟨tol, k, s, ht, hs, h⟩ := h.run
  rcases h with ⟨hk, h⟩ | ⟨hk, rfl⟩
  · cases h with
    | success hstop =>
      rcases hstop with h | h
      · exact .inl h
      · right
        cases hs with
        | refl => exact .inl ⟨rfl, h⟩
        | tail h1 h2 =>
          rename_i k s' tol' o
          right
          refine ⟨k, s', tol, ?_, ?_, ht, h1⟩
          · have := h1.prox
            simp only [mkFinal, h2.eq, next]
            simp only [start] at this
            omega
          · rw [h2.eq] at h ⊢
            exact h
    | newton hi hn x hx => cases hf
    | infeasible hi hn hc hf' => exact absurd hf ((flagOf_ne_success _).2 hf')
  · cases hf

/-- SUCCESS without a proximal iteration: the guess passed the test. -/
theorem Returned.immediate (h : Returned E ws x fin) (hf : fin.out.eflag = .success)
    (h0 : fin.out.proxIters = 0) : fin.x = x ∧ fin.out.newtonIters = 0 ∧
      (residualNorm E.ops E.opts.alpha x ≤ stoppingTol E.ops E.opts ∨
        onesNorm K nz nl nv ≤ E.opts.stallTol) := by
  obtain ⟨tol, k, s, ht, hs, h⟩ := h.run
  have hp := hs.prox
  simp only [start, Nat.zero_add] at hp
  rcases h with ⟨hk, h⟩ | ⟨hk, rfl⟩
  · cases h with
    | success hstop =>
      have hk0 : k = 0 := hp.symm.trans h0
      subst hk0
      cases hs
      exact ⟨rfl, rfl, hstop⟩
    | newton hi hn x hx => cases hf
    | infeasible hi hn hc hf' => exact absurd hf ((flagOf_ne_success _).2 hf')
  · cases hf

/-- A guess that passes the test is returned. -/
theorem solve_good {z : Vec K nz} {l : Vec K nl} {v : Vec K nv}
    (hm : ¬E.opts.innerTolMax < E.opts.innerTolMin) (hl : 1 ≤ E.opts.maxProxIters)
    (h : residualNorm E.ops E.opts.alpha (startPt E z l v) ≤ stoppingTol E.ops E.opts) :
    (solve E ws z l v).2 = .ok (mkFinal (Resid.norm (E.penRes (startPt E z l v))) .success 0 0
      (E.penRes (startPt E z l v)) (startPt E z l v)) := by
  obtain ⟨n, hn⟩ : ∃ n, E.opts.maxProxIters.toNat = n + 1 :=
    ⟨E.opts.maxProxIters.toNat - 1, by omega⟩
  simp only [solve, saturate, if_neg hm, hn, proxLoop]
  rw [if_pos (.inl h)]

end Core

section
variable {K : Type} [Scalar K]

/-! ## C04 -/

/-- C04: on return of `FBstabDense::Solve`, on any object in any state reached by API calls, the
iteration counts respect the limits.  (Termination is totality of `solve`.) -/
theorem C04_dense (hv : ValidationTotal K) (s : FBstabDense K) (hs : s.Reachable)
    (qp : DenseProblem K) (x : CallerVar K) (out : SolverOut K)
    (h : (s.solve qp x).result = .ok out) :
    (out.proxIters : Int) ≤ s.options.maxProxIters ∧
    (out.newtonIters : Int) ≤ s.options.maxNewtonIters ∧
    (out.newtonIters : Int) ≤ s.options.maxInnerIters * (out.proxIters + 1) := by
  obtain ⟨-, -, fin, -, hr, rfl, -⟩ := FBstabDense.returned h
  exact hr.limits (hs.limits hv)

/-- C04 for `FBstabMpc::Solve`. -/
theorem C04_mpc (h0 : ((0 : K) == 0) = true) (hv : ValidationTotal K) (s : FBstabMpc K)
    (hs : s.Reachable) (p : MpcProblem K) (x : CallerVar K) (out : SolverOut K)
    (h : (s.solve p x).result = .ok out) :
    (out.proxIters : Int) ≤ s.options.maxProxIters ∧
    (out.newtonIters : Int) ≤ s.options.maxNewtonIters ∧
    (out.newtonIters : Int) ≤ s.options.maxInnerIters * (out.proxIters + 1) := by
  obtain ⟨-, -, fin, -, hr, rfl, -⟩ := FBstabMpc.returned h0 h
  exact hr.limits (hs.limits h0 hv)

/-! ## C05 -/

/-- C05: the exit flag is never DIVERGENCE; infeasibility is only reported when
`check_feasibility` is on; MAXITERATIONS only when one of the two limits was reached. -/
theorem C05_dense (s : FBstabDense K) (qp : DenseProblem K) (x : CallerVar K) (out : SolverOut K)
    (h : (s.solve qp x).result = .ok out) :
    out.eflag ≠ .divergence ∧
    ((out.eflag = .primalInfeasible ∨ out.eflag = .dualInfeasible ∨
      out.eflag = .primalDualInfeasible) → s.options.checkFeasibility = true) ∧
    (out.eflag = .maxIterations → s.options.maxNewtonIters ≤ (out.newtonIters : Int) ∨
      s.options.maxProxIters ≤ (out.proxIters : Int)) := by
  obtain ⟨-, -, fin, -, hr, rfl, -⟩ := FBstabDense.returned h
  exact hr.flag

/-- C05 for `FBstabMpc`. -/
theorem C05_mpc (h0 : ((0 : K) == 0) = true) (s : FBstabMpc K) (p : MpcProblem K) (x : CallerVar K)
    (out : SolverOut K) (h : (s.solve p x).result = .ok out) :
    out.eflag ≠ .divergence ∧
    ((out.eflag = .primalInfeasible ∨ out.eflag = .dualInfeasible ∨
      out.eflag = .primalDualInfeasible) → s.options.checkFeasibility = true) ∧
    (out.eflag = .maxIterations → s.options.maxNewtonIters ≤ (out.newtonIters : Int) ∨
      s.options.maxProxIters ≤ (out.proxIters : Int)) := by
  obtain ⟨-, -, fin, -, hr, rfl, -⟩ := FBstabMpc.returned h0 h
  exact hr.flag

/-! ## C06 -/

theorem FBstabDense.core_maxProx (s : FBstabDense K) (qp : DenseProblem K) (x : CallerVar K)
    (k : Int) : (s.withOptions { s.options with maxProxIters := k }).core qp x =
      Core.solve ((s.env qp).with (s.env qp).opts.displayLevel k) s.mem.feas.ws (x.z.toVec s.nz)
        (x.l.toVec s.nl) (x.v.toVec s.nv) := rfl

theorem FBstabDense.proxIterate_eq {s : FBstabDense K} {qp : DenseProblem K} {x : CallerVar K}
    {k : Nat} {st : Core.Outer K s.nz s.nl s.nv} {tol : K} (hf : DenseFits s.nz s.nl s.nv qp x)
    (hy : x.YWritable s.nv)
    (ht : saturate (Core.Resid.norm ((s.env qp).penRes (x.guess (s.problem qp))))
      s.options.innerTolMin s.options.innerTolMax = .ok tol)
    (h : Core.Steps (s.env qp) k (Core.start (s.env qp) s.mem.feas.ws (x.guess (s.problem qp)) tol)
      st) : s.proxIterate qp x k = st.xk := by
  cases k with
  | zero => cases h; rfl
  | succ k =>
    simp only [proxIterate, Nat.add_one_ne_zero, if_false]
    have hc := solve_computes (s := s.withOptions { s.options with maxProxIters := (k + 1 : Nat) })
      (qp := qp) (x := x) hf
    rw [FBstabDense.core_maxProx] at hc
    have h2 := Core.Steps.solve ht h
    have := (hc.ok _ h2 hy).2.1
    rw [this]
    exact CallerVar.point_ofPoint _ _

theorem FBstabMpc.core_maxProx (h0 : ((0 : K) == 0) = true) (s : FBstabMpc K) (p : MpcProblem K)
    (x : CallerVar K) (k : Int) :
    (s.withOptions { s.options with maxProxIters := k }).core h0 p x =
      Core.solve ((s.env h0 p).with (s.env h0 p).opts.displayLevel k) s.mem.feas.ws (x.z.toVec _)
        (x.l.toVec _) (x.v.toVec _) := rfl

theorem FBstabMpc.proxIterate_eq (h0 : ((0 : K) == 0) = true) {s : FBstabMpc K} {p : MpcProblem K}
    {x : CallerVar K} {k : Nat} {st : Core.Outer K _ _ _} {tol : K}
    (hf : MpcFits s.N s.nx s.nu s.nc p x) (hcol : p.Columns)
    (ht : saturate (Core.Resid.norm ((s.env h0 p).penRes (x.guess (s.problem p))))
      s.options.innerTolMin s.options.innerTolMax = .ok tol)
    (h : Core.Steps (s.env h0 p) k (Core.start (s.env h0 p) s.mem.feas.ws (x.guess (s.problem p))
      tol) st) : s.proxIterate p x k = st.xk := by
  cases k with
  | zero => cases h; rfl
  | succ k =>
    simp only [proxIterate, Nat.add_one_ne_zero, if_false]
    have hc := solve_computes h0
      (s := s.withOptions { s.options with maxProxIters := (k + 1 : Nat) })
      (p := p) (x := x) hf hcol
    rw [FBstabMpc.core_maxProx] at hc
    have h2 := Core.Steps.solve ht h
    have := (hc.ok _ h2 (fun _ => hf.y)).2.1
    rw [this]
    exact CallerVar.point_ofPoint _ _

/-- C06: when `Solve` returns SUCCESS, the reported residual is the norm of the penalized natural
residual of the returned point, and it is within the tolerance, or the last proximal step (the
all-ones vector if there was none) is not longer than `stall_tol`. -/
theorem C06_dense (s : FBstabDense K) (hl : 1 ≤ s.options.maxProxIters)
    (qp : DenseProblem K) (x : CallerVar K)
    (out : SolverOut K) (h : (s.solve qp x).result = .ok out) (hs : out.eflag = .success) :
    let xr := (s.solve qp x).x.point s.nz s.nl s.nv
    out.residual = residualNorm (s.problem qp) s.options.alpha xr ∧
    (out.residual ≤ stoppingTol (s.problem qp) s.options ∨
     (out.proxIters = 0 ∧ onesNorm K s.nz s.nl s.nv ≤ s.options.stallTol) ∨
     (0 < out.proxIters ∧
       stepNorm xr (s.proxIterate qp x (out.proxIters - 1)) ≤ s.options.stallTol)) := by
  obtain ⟨hf, hy, fin, -, hr, rfl, e⟩ := FBstabDense.returned h
  rw [e, CallerVar.point_ofPoint]
  refine ⟨hr.residual hl (.inl hs), ?_⟩
  rcases hr.success hs with h | h | ⟨k, st, tol, h1, h2, h3, h4⟩
  · exact .inl h
  · exact .inr (.inl h)
  · refine .inr (.inr ⟨by omega, ?_⟩)
    rw [h1, Nat.add_sub_cancel, FBstabDense.proxIterate_eq hf hy h3 h4]
    exact h2

/-- C06 for `FBstabMpc`. -/
theorem C06_mpc (h0 : ((0 : K) == 0) = true) (s : FBstabMpc K) (hl : 1 ≤ s.options.maxProxIters)
    (p : MpcProblem K) (x : CallerVar K)
    (out : SolverOut K) (h : (s.solve p x).result = .ok out) (hs : out.eflag = .success) :
    let xr := (s.solve p x).x.point ((s.N + 1) * (s.nx + s.nu)) ((s.N + 1) * s.nx)
      ((s.N + 1) * s.nc)
    out.residual = residualNorm (s.problem p) s.options.alpha xr ∧
    (out.residual ≤ stoppingTol (s.problem p) s.options ∨
     (out.proxIters = 0 ∧ onesNorm K ((s.N + 1) * (s.nx + s.nu)) ((s.N + 1) * s.nx)
       ((s.N + 1) * s.nc) ≤ s.options.stallTol) ∨
     (0 < out.proxIters ∧
       stepNorm xr (s.proxIterate p x (out.proxIters - 1)) ≤ s.options.stallTol)) := by
  obtain ⟨hf, hc, fin, -, hr, rfl, e⟩ := FBstabMpc.returned h0 h
  rw [e, CallerVar.point_ofPoint]
  refine ⟨hr.residual hl (.inl hs), ?_⟩
  rcases hr.success hs with h | h | ⟨k, st, tol, h1, h2, h3, h4⟩
  · exact .inl h
  · exact .inr (.inl h)
  · refine .inr (.inr ⟨by omega, ?_⟩)
    rw [h1, Nat.add_sub_cancel, FBstabMpc.proxIterate_eq h0 hf hc h3 h4]
    exact h2

/-! ## C07 -/

/-- C07, the part that holds: on SUCCESS, and when the Newton limit stopped the solver, the reported
residual is that of the returned point. -/
theorem C07_dense (s : FBstabDense K) (hl : 1 ≤ s.options.maxProxIters)
    (qp : DenseProblem K) (x : CallerVar K)
    (out : SolverOut K) (h : (s.solve qp x).result = .ok out)
    (hs : out.eflag = .success ∨
      (out.eflag = .maxIterations ∧ s.options.maxNewtonIters ≤ (out.newtonIters : Int))) :
    out.residual = residualNorm (s.problem qp) s.options.alpha
      ((s.solve qp x).x.point s.nz s.nl s.nv) := by
  obtain ⟨hf, hy, fin, -, hr, rfl, e⟩ := FBstabDense.returned h
  rw [e, CallerVar.point_ofPoint]
  exact hr.residual hl hs

/-- C07, the part that holds, for `FBstabMpc`. -/
theorem C07_mpc (h0 : ((0 : K) == 0) = true) (s : FBstabMpc K) (hl : 1 ≤ s.options.maxProxIters)
    (p : MpcProblem K) (x : CallerVar K)
    (out : SolverOut K) (h : (s.solve p x).result = .ok out)
    (hs : out.eflag = .success ∨
      (out.eflag = .maxIterations ∧ s.options.maxNewtonIters ≤ (out.newtonIters : Int))) :
    out.residual = residualNorm (s.problem p) s.options.alpha
      ((s.solve p x).x.point _ _ _) := by
  obtain ⟨hf, hy, fin, -, hr, rfl, e⟩ := FBstabMpc.returned h0 h
  rw [e, CallerVar.point_ofPoint]
  exact hr.residual hl hs

/-! ## C08 -/

/-- C08: `initial_residual` is the residual norm of `(z, l, v)` as passed with `y = b - A z`. -/
theorem C08_dense (s : FBstabDense K) (qp : DenseProblem K) (x : CallerVar K) (out : SolverOut K)
    (h : (s.solve qp x).result = .ok out) :
    out.initialResidual = residualNorm (s.problem qp) s.options.alpha (x.guess (s.problem qp)) := by
  obtain ⟨-, -, fin, -, hr, rfl, -⟩ := FBstabDense.returned h
  exact hr.initialResidual

/-- C08 for `FBstabMpc`. -/
theorem C08_mpc (h0 : ((0 : K) == 0) = true) (s : FBstabMpc K) (p : MpcProblem K) (x : CallerVar K)
    (out : SolverOut K) (h : (s.solve p x).result = .ok out) :
    out.initialResidual = residualNorm (s.problem p) s.options.alpha (x.guess (s.problem p)) := by
  obtain ⟨-, -, fin, -, hr, rfl, -⟩ := FBstabMpc.returned h0 h
  exact hr.initialResidual

/-! ## C12 -/

/-- C12: a guess whose residual is within the tolerance is returned, untouched, as SUCCESS with no
iterations. -/
theorem C12_dense (s : FBstabDense K) (qp : DenseProblem K) (x : CallerVar K)
    (hl : 1 ≤ s.options.maxProxIters) (hm : ¬s.options.innerTolMax < s.options.innerTolMin)
    (hf : DenseFits s.nz s.nl s.nv qp x) (hy : x.YWritable s.nv)
    (h : residualNorm (s.problem qp) s.options.alpha (x.guess (s.problem qp)) ≤
      stoppingTol (s.problem qp) s.options) :
    let r := residualNorm (s.problem qp) s.options.alpha (x.guess (s.problem qp))
    (s.solve qp x).result = .ok ⟨.success, r, 0, 0, r⟩ ∧
    (s.solve qp x).x.z = x.z ∧ (s.solve qp x).x.l = x.l ∧ (s.solve qp x).x.v = x.v ∧
    (s.solve qp x).x.y = .ofVec (margin (s.problem qp) (x.z.toVec s.nz)) := by
  have hc := FBstabDense.solve_computes hf
  obtain ⟨h1, h2, -⟩ := hc.ok _ (Core.solve_good hm hl h) hy
  refine ⟨h1, ?_⟩
  rw [h2]
  exact ⟨DVec.ofVec_toVec _ hf.z, DVec.ofVec_toVec _ hf.l, DVec.ofVec_toVec _ hf.v, rfl⟩

/-- C12 for `FBstabMpc`. -/
theorem C12_mpc (h0 : ((0 : K) == 0) = true) (s : FBstabMpc K) (p : MpcProblem K) (x : CallerVar K)
    (hl : 1 ≤ s.options.maxProxIters) (hm : ¬s.options.innerTolMax < s.options.innerTolMin)
    (hf : MpcFits s.N s.nx s.nu s.nc p x) (hcol : p.Columns)
    (h : residualNorm (s.problem p) s.options.alpha (x.guess (s.problem p)) ≤
      stoppingTol (s.problem p) s.options) :
    let r := residualNorm (s.problem p) s.options.alpha (x.guess (s.problem p))
    (s.solve p x).result = .ok ⟨.success, r, 0, 0, r⟩ ∧
    (s.solve p x).x.z = x.z ∧ (s.solve p x).x.l = x.l ∧ (s.solve p x).x.v = x.v ∧
    (s.solve p x).x.y = .ofVec (margin (s.problem p) (x.z.toVec _)) := by
  have hc := FBstabMpc.solve_computes h0 hf hcol
  obtain ⟨h1, h2, -⟩ := hc.ok _ (Core.solve_good hm hl h) (fun _ => hf.y)
  refine ⟨h1, ?_⟩
  rw [h2]
  exact ⟨DVec.ofVec_toVec _ hf.z, DVec.ofVec_toVec _ hf.l, DVec.ofVec_toVec _ hf.v, rfl⟩

/-- C12, conversely: SUCCESS without a proximal iteration happens only if the guess is within the tolerance
(or `stall_tol` is at least the norm of the all-ones vector); nothing but `y` is changed. -/
theorem C12_only_dense (s : FBstabDense K) (qp : DenseProblem K) (x : CallerVar K) (out : SolverOut K)
    (h : (s.solve qp x).result = .ok out) (hs : out.eflag = .success) (h0 : out.proxIters = 0) :
    (residualNorm (s.problem qp) s.options.alpha (x.guess (s.problem qp)) ≤
        stoppingTol (s.problem qp) s.options ∨ onesNorm K s.nz s.nl s.nv ≤ s.options.stallTol) ∧
    out.newtonIters = 0 ∧
    (s.solve qp x).x.z = x.z ∧ (s.solve qp x).x.l = x.l ∧ (s.solve qp x).x.v = x.v := by
  obtain ⟨hf, hy, fin, -, hr, rfl, e⟩ := FBstabDense.returned h
  obtain ⟨h1, h2, h3⟩ := hr.immediate hs h0
  rw [e, h1]
  exact ⟨h3, h2, DVec.ofVec_toVec _ hf.z, DVec.ofVec_toVec _ hf.l, DVec.ofVec_toVec _ hf.v⟩

/-- C12, conversely, for `FBstabMpc`. -/
theorem C12_only_mpc (hz : ((0 : K) == 0) = true) (s : FBstabMpc K) (p : MpcProblem K) (x : CallerVar K)
    (out : SolverOut K) (h : (s.solve p x).result = .ok out) (hs : out.eflag = .success)
    (h0 : out.proxIters = 0) :
    (residualNorm (s.problem p) s.options.alpha (x.guess (s.problem p)) ≤
        stoppingTol (s.problem p) s.options ∨
      onesNorm K ((s.N + 1) * (s.nx + s.nu)) ((s.N + 1) * s.nx) ((s.N + 1) * s.nc) ≤ s.options.stallTol) ∧
    out.newtonIters = 0 ∧
    (s.solve p x).x.z = x.z ∧ (s.solve p x).x.l = x.l ∧ (s.solve p x).x.v = x.v := by
  obtain ⟨hf, hy, fin, -, hr, rfl, e⟩ := FBstabMpc.returned hz h
  obtain ⟨h1, h2, h3⟩ := hr.immediate hs h0
  rw [e, h1]
  exact ⟨h3, h2, DVec.ofVec_toVec _ hf.z, DVec.ofVec_toVec _ hf.l, DVec.ofVec_toVec _ hf.v⟩

end
end Fbstab
