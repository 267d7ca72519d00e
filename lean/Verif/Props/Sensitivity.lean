import Verif.Proofs.Sensitivity
import Verif.Props.Kkt
import Verif.Proofs.Witness

/-!
# C69: how far two results can be apart, and how far from the solution

Everything in the bounds is returned by `Solve`: the residuals and the multipliers.
-/

namespace Fbstab
open Matrix

/-- The point returned by `Solve`, without the constraint margin. -/
noncomputable def FBstabDense.returnedPD (s : FBstabDense ℝ) (p : DenseProblem ℝ) (x : CallerVar ℝ) : PD s.nz s.nl s.nv :=
  ⟨(s.returnedPoint p x).z.fn, (s.returnedPoint p x).l.fn, (s.returnedPoint p x).v.fn⟩

noncomputable def FBstabMpc.returnedPD (s : FBstabMpc ℝ) (p : MpcProblem ℝ) (x : CallerVar ℝ) :
    PD ((s.N + 1) * (s.nx + s.nu)) ((s.N + 1) * s.nx) ((s.N + 1) * s.nc) :=
  ⟨(s.returnedPoint p x).z.fn, (s.returnedPoint p x).l.fn, (s.returnedPoint p x).v.fn⟩

theorem FBstabDense.result (s : FBstabDense ℝ) (hs : s.Reachable) (p : DenseProblem ℝ) (x : CallerVar ℝ)
    (out : SolverOut ℝ) (h : (s.solve p x).result = .ok out) (hf : out.eflag = .success)
    (hv : ∀ i, 0 ≤ (x.v.toVec s.nv) i) :
    (s.qp p).Result out.residual (out.residual / s.options.alpha) (out.residual / (1 - s.options.alpha))
      (s.returnedPD p x) := by
  obtain ⟨h0, h1⟩ := (C01_reachable_dense s hs).alpha_unit
  exact (s.realEnv p).ops.result h0 h1 (C11_dense s p x out h) (C20_nonneg_dense s p x out h (.inl hf) hv)
    (le_of_eq (C07_dense s (C01_reachable_dense s hs).maxProxIters p x out h (.inl hf)).symm)

theorem FBstabMpc.result (s : FBstabMpc ℝ) (hs : s.Reachable) (p : MpcProblem ℝ) (x : CallerVar ℝ)
    (out : SolverOut ℝ) (h : (s.solve p x).result = .ok out) (hf : out.eflag = .success)
    (hv : ∀ i, 0 ≤ (x.v.toVec ((s.N + 1) * s.nc)) i) :
    (s.qp p).Result out.residual (out.residual / s.options.alpha) (out.residual / (1 - s.options.alpha))
      (s.returnedPD p x) := by
  obtain ⟨h0, h1⟩ := (C01_reachable_mpc s hs).alpha_unit
  exact (s.realEnv p).ops.result h0 h1 (C11_mpc s p x out h) (C20_nonneg_mpc s p x out h (.inl hf) hv)
    (le_of_eq (C07_mpc real_zero_beq s (C01_reachable_mpc s hs).maxProxIters p x out h (.inl hf)).symm)

namespace QP
variable {nz nl nv : Nat} {q q' : QP nz nl nv}

theorem Result.near (hm : SameMatrices q q') {mu : ℝ} (hmu : 0 < mu) (hc : q.StronglyConvex mu)
    {e e' c c' p p' : ℝ} {x x' : PD nz nl nv} (h : q.Result e c p x) (h' : q'.Result e' c' p' x') :
    euclid (x.z - x'.z) ≤ (e + e' + euclid (q.f - q'.f)) / mu +
      √(((e + e' + euclid (q.h - q'.h)) * euclid (x.l - x'.l) + euclid (q.b - q'.b) * euclid (x.v - x'.v) +
        nv * (p + p') + c' * ∑ i, x.v i + c * ∑ i, x'.v i) / mu) := by
  refine le_of_quadratic hmu ?_ ((hc _).trans (h.apart hm h'))
  have h1 := (euclid_nonneg _).trans h.stationary
  have h2 := (euclid_nonneg _).trans h'.stationary
  have h3 := euclid_nonneg (q.f - q'.f)
  linarith

end QP

/-- C69: two calls which return SUCCESS, of one or two solver objects with any histories, options and (nonnegative)
guesses, for problems with the same matrices `H`, `G` and `A`.  Their results `z` and `z'` differ, measured with `H`,
by at most what the residuals and multipliers returned and the changes of `f`, `h` and `b` allow; and in the
Euclidean norm, if the objective is strongly convex. -/
theorem C69_dense {nz nl nv : Nat} (mem mem') (p p' : DenseProblem ℝ) (x x' : CallerVar ℝ) (out out' : SolverOut ℝ) :
    let s : FBstabDense ℝ := ⟨nz, nl, nv, mem⟩
    let s' : FBstabDense ℝ := ⟨nz, nl, nv, mem'⟩
    s.Reachable → s'.Reachable → QP.SameMatrices (s.qp p) (s'.qp p') →
    (∀ i, 0 ≤ (x.v.toVec nv) i) → (∀ i, 0 ≤ (x'.v.toVec nv) i) →
    (s.solve p x).result = .ok out → out.eflag = .success →
    (s'.solve p' x').result = .ok out' → out'.eflag = .success →
    let a := out.residual + out'.residual + euclid ((s.qp p).f - (s'.qp p').f)
    let g := QP.resultGap (s.qp p) (s'.qp p') s.options.alpha s'.options.alpha out.residual out'.residual
      (s.returnedPD p x) (s'.returnedPD p' x')
    let d := (s.returnedPD p x).z - (s'.returnedPD p' x').z
    d ⬝ᵥ (s.qp p).H *ᵥ d ≤ a * euclid d + g ∧
    ∀ mu, 0 < mu → (s.qp p).StronglyConvex mu → euclid d ≤ a / mu + √(g / mu) := by
  intro s s' hs hs' hm hv hv' h hf h' hf' a g d
  have r := s.result hs p x out h hf hv
  have r' := s'.result hs' p' x' out' h' hf' hv'
  exact ⟨r.apart hm r', fun mu hmu hc => r.near hm hmu hc r'⟩

/-- C69 for `FBstabMpc`. -/
theorem C69_mpc {N nx nu nc : Nat} (mem mem') (p p' : MpcProblem ℝ) (x x' : CallerVar ℝ) (out out' : SolverOut ℝ) :
    let s : FBstabMpc ℝ := ⟨N, nx, nu, nc, mem⟩
    let s' : FBstabMpc ℝ := ⟨N, nx, nu, nc, mem'⟩
    s.Reachable → s'.Reachable → QP.SameMatrices (s.qp p) (s'.qp p') →
    (∀ i, 0 ≤ (x.v.toVec ((N + 1) * nc)) i) → (∀ i, 0 ≤ (x'.v.toVec ((N + 1) * nc)) i) →
    (s.solve p x).result = .ok out → out.eflag = .success →
    (s'.solve p' x').result = .ok out' → out'.eflag = .success →
    let a := out.residual + out'.residual + euclid ((s.qp p).f - (s'.qp p').f)
    let g := QP.resultGap (s.qp p) (s'.qp p') s.options.alpha s'.options.alpha out.residual out'.residual
      (s.returnedPD p x) (s'.returnedPD p' x')
    let d := (s.returnedPD p x).z - (s'.returnedPD p' x').z
    d ⬝ᵥ (s.qp p).H *ᵥ d ≤ a * euclid d + g ∧
    ∀ mu, 0 < mu → (s.qp p).StronglyConvex mu → euclid d ≤ a / mu + √(g / mu) := by
  intro s s' hs hs' hm hv hv' h hf h' hf' a g d
  have r := s.result hs p x out h hf hv
  have r' := s'.result hs' p' x' out' h' hf' hv'
  exact ⟨r.apart hm r', fun mu hmu hc => r.near hm hmu hc r'⟩

/-- C69, the distance from the solution: against every solution `(z*, l*, v*)` of the KKT conditions, the result of a
call which returns SUCCESS with the residual `eps` is wrong by at most `eps * |z - z*|` plus
`g = eps * (|l - l*| + nv / (1 - alpha) + sum v* / alpha)`, measured with `H`; if the objective is strongly convex
with modulus `mu`, then `|z - z*| <= eps / mu + sqrt (g / mu)`. -/
theorem C69_solution_dense (s : FBstabDense ℝ) (hs : s.Reachable) (p : DenseProblem ℝ) (x : CallerVar ℝ)
    (hv : ∀ i, 0 ≤ (x.v.toVec s.nv) i) (out : SolverOut ℝ) (h : (s.solve p x).result = .ok out)
    (hf : out.eflag = .success) {zs ls vs} (hk : (s.qp p).KKT zs ls vs) :
    let g := out.residual * (euclid ((s.returnedPD p x).l - ls) + s.nv / (1 - s.options.alpha) +
      (∑ i, vs i) / s.options.alpha)
    let d := (s.returnedPD p x).z - zs
    d ⬝ᵥ (s.qp p).H *ᵥ d ≤ out.residual * euclid d + g ∧
    ∀ mu, 0 < mu → (s.qp p).StronglyConvex mu → euclid d ≤ out.residual / mu + √(g / mu) := by
  intro g d
  have r := s.result hs p x out h hf hv
  have e : (s.returnedPD p x).z - zs = d := rfl
  have z0 : ∀ {n : Nat} (a : Fin n → ℝ), euclid (a - a) = 0 := fun a => by
    rw [sub_self]; unfold euclid; simp
  have eg : (out.residual + 0 + euclid ((s.qp p).h - (s.qp p).h)) * euclid ((s.returnedPD p x).l - ls) +
      euclid ((s.qp p).b - (s.qp p).b) * euclid ((s.returnedPD p x).v - vs) +
      s.nv * (out.residual / (1 - s.options.alpha) + 0) + 0 * ∑ i, (s.returnedPD p x).v i +
      out.residual / s.options.alpha * ∑ i, vs i = g := by
    rw [z0, z0]
    ring
  refine ⟨?_, fun mu hmu hc => ?_⟩
  · have := r.apart ⟨rfl, rfl, rfl⟩ hk.result
    rw [eg, z0, add_zero, add_zero] at this
    exact this
  · have := r.near ⟨rfl, rfl, rfl⟩ hmu hc hk.result
    rw [eg, z0, add_zero, add_zero] at this
    exact this

/-- C69, the distance from the solution for `FBstabMpc`. -/
theorem C69_solution_mpc (s : FBstabMpc ℝ) (hs : s.Reachable) (p : MpcProblem ℝ) (x : CallerVar ℝ)
    (hv : ∀ i, 0 ≤ (x.v.toVec ((s.N + 1) * s.nc)) i) (out : SolverOut ℝ) (h : (s.solve p x).result = .ok out)
    (hf : out.eflag = .success) {zs ls vs} (hk : (s.qp p).KKT zs ls vs) :
    let g := out.residual * (euclid ((s.returnedPD p x).l - ls) +
      ((s.N + 1) * s.nc : Nat) / (1 - s.options.alpha) + (∑ i, vs i) / s.options.alpha)
    let d := (s.returnedPD p x).z - zs
    d ⬝ᵥ (s.qp p).H *ᵥ d ≤ out.residual * euclid d + g ∧
    ∀ mu, 0 < mu → (s.qp p).StronglyConvex mu → euclid d ≤ out.residual / mu + √(g / mu) := by
  intro g d
  have r := s.result hs p x out h hf hv
  have z0 : ∀ {n : Nat} (a : Fin n → ℝ), euclid (a - a) = 0 := fun a => by
    rw [sub_self]; unfold euclid; simp
  have eg : (out.residual + 0 + euclid ((s.qp p).h - (s.qp p).h)) * euclid ((s.returnedPD p x).l - ls) +
      euclid ((s.qp p).b - (s.qp p).b) * euclid ((s.returnedPD p x).v - vs) +
      ((s.N + 1) * s.nc : Nat) * (out.residual / (1 - s.options.alpha) + 0) + 0 * ∑ i, (s.returnedPD p x).v i +
      out.residual / s.options.alpha * ∑ i, vs i = g := by
    rw [z0, z0]
    ring
  refine ⟨?_, fun mu hmu hc => ?_⟩
  · have := r.apart ⟨rfl, rfl, rfl⟩ hk.result
    rw [eg, z0, add_zero, add_zero] at this
    exact this
  · have := r.near ⟨rfl, rfl, rfl⟩ hmu hc hk.result
    rw [eg, z0, add_zero, add_zero] at this
    exact this

end Fbstab
