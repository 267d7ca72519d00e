import Verif.Proofs.Certificates
import Verif.Props.Kkt

/-!
# Infeasibility flags: C21, C22, C23 (what holds)

`QP.PrimalCertificate` and `QP.DualCertificate` are defined in Spec/RealApi.lean.  The defects are in
Props/FalseAlarms.lean.
-/

namespace Fbstab
open Matrix

/-- The flags that claim primal infeasibility. -/
def ExitFlag.claimsPrimal (f : ExitFlag) : Prop := f = .primalInfeasible ∨ f = .primalDualInfeasible
/-- The flags that claim dual infeasibility. -/
def ExitFlag.claimsDual (f : ExitFlag) : Prop := f = .dualInfeasible ∨ f = .primalDualInfeasible

namespace Core
variable {nz nl nv : Nat} {E : Env ℝ nz nl nv} {q : QP nz nl nv}

theorem flagOf_primal (f : FeasStatus) :
    (flagOf f).claimsPrimal ↔ (f = .primalInfeasible ∨ f = .both) := by
  cases f <;> simp [flagOf, ExitFlag.claimsPrimal]

theorem flagOf_dual (f : FeasStatus) :
    (flagOf f).claimsDual ↔ (f = .dualInfeasible ∨ f = .both) := by
  cases f <;> simp [flagOf, ExitFlag.claimsDual]

theorem Returned.certificate (I : q.Implements E.ops) (ht : 0 ≤ E.opts.infeasTol) {ws x fin}
    (h : Returned E ws x fin) (hf : fin.out.eflag ≠ .success)
    (hf' : fin.out.eflag ≠ .maxIterations) :
    (fin.out.eflag.claimsPrimal ↔ q.PrimalCertificate E.opts.infeasTol fin.x.l.fn fin.x.v.fn) ∧
    (fin.out.eflag.claimsDual ↔ q.DualCertificate E.opts.infeasTol fin.x.z.fn) := by
  obtain ⟨tol, k, s, -, hs, h⟩ := h.run
  rcases h with ⟨-, h⟩ | ⟨-, rfl⟩
  · cases h with
    | success _ => exact absurd rfl hf
    | newton hi hn y hy => exact absurd rfl hf'
    | infeasible hi hn hc hf =>
      rename_i o _
      have := checkFeasibility_real I (E.axpy (-1) s.xk o.x) E.opts.infeasTol ht s.ws
      refine ⟨(flagOf_primal _).trans this.1, (flagOf_dual _).trans this.2⟩
  · exact absurd rfl hf'

theorem claims_ne {f : ExitFlag} (hf : f.claimsPrimal ∨ f.claimsDual) :
    f ≠ .success ∧ f ≠ .maxIterations := by
  unfold ExitFlag.claimsPrimal ExitFlag.claimsDual at hf
  constructor <;> intro h <;> rw [h] at hf <;> simp at hf

/-- Prefixes of runs. -/
theorem Steps.prefix {n : Nat} {s s' : Outer ℝ nz nl nv} (h : Steps E n s s') :
    ∀ k < n, ∃ a b tol o, Steps E k s a ∧ Steps E (k + 1) s b ∧ Step E a b tol o := by
  induction h with
  | refl => intro k hk; omega
  | @tail m _ _ _ _ _ h1 h2 ih =>
    intro k hk
    by_cases e : k < m
    · exact ih k e
    · obtain rfl : k = m := Nat.le_antisymm (Nat.lt_succ_iff.1 hk) (not_lt.1 e)
      exact ⟨_, _, _, _, h1, .tail h1 h2, h2⟩

theorem Step.no_certificate (I : q.Implements E.ops) (ht : 0 ≤ E.opts.infeasTol)
    (hc : E.opts.checkFeasibility = true) {a b tol o} (h : Step E a b tol o) :
    ¬q.PrimalCertificate E.opts.infeasTol (b.xk.l.fn - a.xk.l.fn) (b.xk.v.fn - a.xk.v.fn) ∧
    ¬q.DualCertificate E.opts.infeasTol (b.xk.z.fn - a.xk.z.fn) := by
  have hf := h.feas hc
  have := checkFeasibility_real I (E.axpy (-1) a.xk o.x) E.opts.infeasTol ht a.ws
  unfold check at hf
  rw [hf] at this
  have hb : b.xk = o.x := by rw [h.eq]; rfl
  have ez : ((E.axpy (-1) a.xk o.x).z).fn = b.xk.z.fn - a.xk.z.fn := by
    rw [hb]; ext i; simp [Env.axpy]; ring
  have el : ((E.axpy (-1) a.xk o.x).l).fn = b.xk.l.fn - a.xk.l.fn := by
    rw [hb]; ext i; simp [Env.axpy]; ring
  have ev : ((E.axpy (-1) a.xk o.x).v).fn = b.xk.v.fn - a.xk.v.fn := by
    rw [hb]; ext i; simp [Env.axpy]; ring
  rw [ez, el, ev] at this
  constructor
  · intro h; have := this.1.2 h; simp at this
  · intro h; have := this.2.2 h; simp at this

end Core

theorem Params.InRange.infeasTol_nonneg {o : Params ℝ} (h : o.InRange) : 0 ≤ o.infeasTol :=
  le_trans (by norm_num) h.infeasTol

/-! ## C21 -/

/-- C21: when `Solve` returns an infeasibility flag, the flag says primal infeasible exactly when the
returned `(l, v)` is a primal certificate, and dual infeasible exactly when the returned `z` is a
dual certificate, for the tolerance `infeas_tol`. -/
theorem C21_dense (s : FBstabDense ℝ) (hs : s.Reachable) (p : DenseProblem ℝ) (x : CallerVar ℝ)
    (out : SolverOut ℝ) (h : (s.solve p x).result = .ok out)
    (hf : out.eflag.claimsPrimal ∨ out.eflag.claimsDual) :
    (out.eflag.claimsPrimal ↔ (s.qp p).PrimalCertificate s.options.infeasTol
      (s.returnedPoint p x).l.fn (s.returnedPoint p x).v.fn) ∧
    (out.eflag.claimsDual ↔ (s.qp p).DualCertificate s.options.infeasTol
      (s.returnedPoint p x).z.fn) := by
  obtain ⟨-, -, fin, -, hr, rfl, e⟩ := FBstabDense.returned h
  rw [show s.returnedPoint p x = fin.x by
    rw [FBstabDense.returnedPoint, e, CallerVar.point_ofPoint]]
  obtain ⟨h1, h2⟩ := Core.claims_ne hf
  exact hr.certificate (s.realEnv p).ops (C01_reachable_dense s hs).infeasTol_nonneg h1 h2

/-- C21 for `FBstabMpc`. -/
theorem C21_mpc (s : FBstabMpc ℝ) (hs : s.Reachable) (p : MpcProblem ℝ) (x : CallerVar ℝ)
    (out : SolverOut ℝ) (h : (s.solve p x).result = .ok out)
    (hf : out.eflag.claimsPrimal ∨ out.eflag.claimsDual) :
    (out.eflag.claimsPrimal ↔ (s.qp p).PrimalCertificate s.options.infeasTol
      (s.returnedPoint p x).l.fn (s.returnedPoint p x).v.fn) ∧
    (out.eflag.claimsDual ↔ (s.qp p).DualCertificate s.options.infeasTol
      (s.returnedPoint p x).z.fn) := by
  obtain ⟨-, -, fin, -, hr, rfl, e⟩ := FBstabMpc.returned real_zero_beq h
  rw [show s.returnedPoint p x = fin.x by
    rw [FBstabMpc.returnedPoint, e, CallerVar.point_ofPoint]]
  obtain ⟨h1, h2⟩ := Core.claims_ne hf
  exact hr.certificate (s.realEnv p).ops (C01_reachable_mpc s hs).infeasTol_nonneg h1 h2

/-- C21, nothing is missed: if `check_feasibility` is on, no difference of successive proximal
iterates of a call that went on (`k < prox_iters`) is a certificate. -/
theorem C21_not_missed_dense (s : FBstabDense ℝ) (hs : s.Reachable) (p : DenseProblem ℝ)
    (x : CallerVar ℝ) (out : SolverOut ℝ) (h : (s.solve p x).result = .ok out)
    (hc : s.options.checkFeasibility = true) (k : Nat) (hk : k < out.proxIters) :
    let a := s.proxIterate p x k
    let b := s.proxIterate p x (k + 1)
    ¬(s.qp p).PrimalCertificate s.options.infeasTol (b.l.fn - a.l.fn) (b.v.fn - a.v.fn) ∧
    ¬(s.qp p).DualCertificate s.options.infeasTol (b.z.fn - a.z.fn) := by
  obtain ⟨hf, hy, fin, -, hr, rfl, e⟩ := FBstabDense.returned h
  obtain ⟨tol, n, st, ht, hst, hex⟩ := hr.run
  have hp := hst.prox
  have hn : k < n := by
    have : fin.out.proxIters = st.prox := by
      rcases hex with ⟨-, h⟩ | ⟨-, rfl⟩
      · cases h <;> rfl
      · rfl
    simp only [Core.start, Nat.zero_add] at hp
    omega
  obtain ⟨a, b, tol', o, h1, h2, h3⟩ := hst.prefix k hn
  intro a' b'
  rw [show a' = a.xk from FBstabDense.proxIterate_eq hf hy ht h1,
    show b' = b.xk from FBstabDense.proxIterate_eq hf hy ht h2]
  exact h3.no_certificate (s.realEnv p).ops (C01_reachable_dense s hs).infeasTol_nonneg hc

/-- C21, nothing is missed, for `FBstabMpc`. -/
theorem C21_not_missed_mpc (s : FBstabMpc ℝ) (hs : s.Reachable) (p : MpcProblem ℝ)
    (x : CallerVar ℝ) (out : SolverOut ℝ) (h : (s.solve p x).result = .ok out)
    (hc : s.options.checkFeasibility = true) (k : Nat) (hk : k < out.proxIters) :
    let a := s.proxIterate p x k
    let b := s.proxIterate p x (k + 1)
    ¬(s.qp p).PrimalCertificate s.options.infeasTol (b.l.fn - a.l.fn) (b.v.fn - a.v.fn) ∧
    ¬(s.qp p).DualCertificate s.options.infeasTol (b.z.fn - a.z.fn) := by
  obtain ⟨hf, hcol, fin, -, hr, rfl, e⟩ := FBstabMpc.returned real_zero_beq h
  obtain ⟨tol, n, st, ht, hst, hex⟩ := hr.run
  have hp := hst.prox
  have hn : k < n := by
    have : fin.out.proxIters = st.prox := by
      rcases hex with ⟨-, h⟩ | ⟨-, rfl⟩
      · cases h <;> rfl
      · rfl
    simp only [Core.start, Nat.zero_add] at hp
    omega
  obtain ⟨a, b, tol', o, h1, h2, h3⟩ := hst.prefix k hn
  intro a' b'
  rw [show a' = a.xk from FBstabMpc.proxIterate_eq real_zero_beq hf hcol ht h1,
    show b' = b.xk from FBstabMpc.proxIterate_eq real_zero_beq hf hcol ht h2]
  exact h3.no_certificate (s.realEnv p).ops (C01_reachable_mpc s hs).infeasTol_nonneg hc

/-! ## C22 -/

/-- C22: an exact certificate with `v >= 0` proves that no point satisfies the constraints. -/
theorem C22_exact {nz nl nv : Nat} (q : QP nz nl nv) (l v) (h : q.PrimalCertificate 0 l v)
    (hv : ∀ i, 0 ≤ v i) : ¬∃ z, q.Feasible z := fun ⟨z, hz⟩ => h.infeasible hv z hz

/-- C22 for what `FBstabDense` returns: if the flag claims primal infeasibility and the returned `v`
happens to be nonnegative (the code does not check it), then every point that satisfies the
constraints has 1-norm at least `|b'v + h'l| / (infeas_tol * |(v, l)|)`. -/
theorem C22_far_dense (s : FBstabDense ℝ) (hs : s.Reachable) (p : DenseProblem ℝ) (x : CallerVar ℝ)
    (out : SolverOut ℝ) (h : (s.solve p x).result = .ok out) (hf : out.eflag.claimsPrimal)
    (hv : ∀ i, 0 ≤ (s.returnedPoint p x).v i) (z) (hz : (s.qp p).Feasible z) :
    let v := (s.returnedPoint p x).v.fn
    let l := (s.returnedPoint p x).l.fn
    |(s.qp p).b ⬝ᵥ v + (s.qp p).h ⬝ᵥ l| ≤ s.options.infeasTol * max ‖v‖ ‖l‖ * ∑ i, |z i| :=
  ((C21_dense s hs p x out h (.inl hf)).1.1 hf).far hv hz

theorem C22_far_mpc (s : FBstabMpc ℝ) (hs : s.Reachable) (p : MpcProblem ℝ) (x : CallerVar ℝ)
    (out : SolverOut ℝ) (h : (s.solve p x).result = .ok out) (hf : out.eflag.claimsPrimal)
    (hv : ∀ i, 0 ≤ (s.returnedPoint p x).v i) (z) (hz : (s.qp p).Feasible z) :
    let v := (s.returnedPoint p x).v.fn
    let l := (s.returnedPoint p x).l.fn
    |(s.qp p).b ⬝ᵥ v + (s.qp p).h ⬝ᵥ l| ≤ s.options.infeasTol * max ‖v‖ ‖l‖ * ∑ i, |z i| :=
  ((C21_mpc s hs p x out h (.inl hf)).1.1 hf).far hv hz

/-! ## C23 -/

/-- C23: with an exact certificate the objective is unbounded below on the feasible set, if that is
not empty. -/
theorem C23_exact {nz nl nv : Nat} (q : QP nz nl nv) (hs : q.H.IsSymm) (d)
    (h : q.DualCertificate 0 d) (z) (hz : q.Feasible z) (M : ℝ) :
    ∃ z', q.Feasible z' ∧ q.objective z' < M := h.unbounded hz hs M

/-- C23 for what `FBstabDense` returns: if the flag claims dual infeasibility then every KKT point
`(z*, l*, v*)` has 1-norm at least `|f'z| / (infeas_tol * |z|)`. -/
theorem C23_far_dense (s : FBstabDense ℝ) (hs : s.Reachable) (p : DenseProblem ℝ) (x : CallerVar ℝ)
    (out : SolverOut ℝ) (h : (s.solve p x).result = .ok out) (hf : out.eflag.claimsDual)
    (hH : (s.qp p).H.IsSymm) (zs ls vs) (hk : (s.qp p).KKT zs ls vs) :
    let d := (s.returnedPoint p x).z.fn
    |(s.qp p).f ⬝ᵥ d| ≤ s.options.infeasTol * ‖d‖ *
      (∑ i, |zs i| + ∑ i, |ls i| + ∑ i, |vs i|) :=
  ((C21_dense s hs p x out h (.inr hf)).2.1 hf).far hH hk

theorem C23_far_mpc (s : FBstabMpc ℝ) (hs : s.Reachable) (p : MpcProblem ℝ) (x : CallerVar ℝ)
    (out : SolverOut ℝ) (h : (s.solve p x).result = .ok out) (hf : out.eflag.claimsDual)
    (hH : (s.qp p).H.IsSymm) (zs ls vs) (hk : (s.qp p).KKT zs ls vs) :
    let d := (s.returnedPoint p x).z.fn
    |(s.qp p).f ⬝ᵥ d| ≤ s.options.infeasTol * ‖d‖ *
      (∑ i, |zs i| + ∑ i, |ls i| + ∑ i, |vs i|) :=
  ((C21_mpc s hs p x out h (.inr hf)).2.1 hf).far hH hk

end Fbstab
