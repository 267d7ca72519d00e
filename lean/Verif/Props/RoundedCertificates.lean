import Verif.Proofs.RoundingFeas
import Verif.Props.Infeasible
import Verif.Props.Rounding

/-!
# C63: infeasibility flags in floating point arithmetic
-/

namespace Fbstab
open Matrix
variable {K : Type} [Scalar K] {u eta : ℝ}

namespace Core
variable {nz nl nv : Nat} {E : Env K nz nl nv}

/-- What an infeasibility flag says of the last check. -/
theorem Returned.lastCheck {ws x fin} (h : Returned E ws x fin) (hf : fin.out.eflag ≠ .success)
    (hf' : fin.out.eflag ≠ .maxIterations) : ∃ tol s,
    saturate (Resid.norm (E.penRes x)) E.opts.innerTolMin E.opts.innerTolMax = .ok tol ∧
    Steps E fin.out.proxIters (start E ws x tol) s ∧ E.opts.checkFeasibility = true ∧
    (fin.out.eflag.claimsPrimal ↔ ((checkFeasibility E.ops fin.x E.opts.infeasTol s.ws).1 = .primalInfeasible ∨
      (checkFeasibility E.ops fin.x E.opts.infeasTol s.ws).1 = .both)) ∧
    (fin.out.eflag.claimsDual ↔ ((checkFeasibility E.ops fin.x E.opts.infeasTol s.ws).1 = .dualInfeasible ∨
      (checkFeasibility E.ops fin.x E.opts.infeasTol s.ws).1 = .both)) := by
  obtain ⟨tol, k, s, ht, hs, h⟩ := h.run
  rcases h with ⟨-, h⟩ | ⟨-, rfl⟩
  · cases h with
    | success _ => exact absurd rfl hf
    | newton hi hn y hy => exact absurd rfl hf'
    | infeasible hi hn hc hf =>
      have hp := hs.prox
      simp only [start, Nat.zero_add] at hp
      refine ⟨tol, s, ht, ?_, hc, flagOf_primal _, flagOf_dual _⟩
      show Steps E s.prox _ s
      rw [hp]
      exact hs
  · exact absurd rfl hf'

/-- The workspaces stay finite as long as the sums of the checks do. -/
theorem Steps.wsFinite (F : Rounding K u eta) (hh : ∃ r, F.Reads (E.ops.axpyh 1 (Vec.const 0)) r)
    (hb : ∃ r, F.Reads (E.ops.axpyb 1 (Vec.const 0)) r) {s0 : Outer K nz nl nv} (hw : F.WsFinite s0.ws) :
    ∀ {k s}, Steps E k s0 s →
    (∀ j < k, ∀ a b, Steps E j s0 a → Steps E (j + 1) s0 b →
      ∃ r, F.Reads (multiplierSum E.ops (b.xk.l + (-1 : K) * a.xk.l) (b.xk.v + (-1 : K) * a.xk.v)) r) →
    F.WsFinite s.ws := by
  intro k s h
  induction h with
  | refl => exact fun _ => hw
  | @tail k a b c tol o h1 h2 ih =>
    intro hf
    have ha := ih hw fun j hj => hf j (by omega)
    have hm := hf k (by omega) _ _ h1 (.tail h1 h2)
    have e := h2.eq
    have ex : c.xk = o.x := by rw [e]; rfl
    rw [ex] at hm
    have ew : c.ws = if E.opts.checkFeasibility then
      (checkFeasibility E.ops (E.axpy (-1) b.xk o.x) E.opts.infeasTol b.ws).2 else b.ws := by rw [e]; rfl
    rw [ew]
    split
    · exact ⟨hm, hh, hb⟩
    · exact ha

end Core

/-- C63, primal, FBstabDense: in any arithmetic with rounding, overflow and underflow: if the problem data
are finite and the sums of the check at the returned `(l, v)` do not overflow, then a flag that claims primal
infeasibility means that the returned `(l, v)` is a certificate of the quadratic program in exact arithmetic,
up to the rounding error of evaluating it once.  How the solver computed its iterates does not matter. -/
theorem C63_primal_dense (F : Rounding K u eta) (s : FBstabDense K) (hz : 0 < s.nz) (p : DenseProblem K)
    (x : CallerVar K) (q : QP s.nz s.nl s.nv) (hq : F.ReadsDense (p.toData s.nz s.nl s.nv) q)
    (hg : roundOff u s.nz s.nl s.nv < 1) (tol : ℝ) (ht : F.toReal s.options.infeasTol = some tol) (h0 : 0 ≤ tol)
    (out : SolverOut K) (h : (s.solve p x).result = .ok out) (hs : out.eflag.claimsPrimal)
    (hf : F.PrimalFinite (s.problem p) s.options.infeasTol ((s.solve p x).x.point s.nz s.nl s.nv).l
      ((s.solve p x).x.point s.nz s.nl s.nv).v) :
    let xr := (s.solve p x).x.point s.nz s.nl s.nv
    ∃ l v, F.Reads xr.l l ∧ F.Reads xr.v v ∧ q.RoundedPrimalCertificate tol (roundOff u s.nz s.nl s.nv)
      (underFlow eta s.nz s.nl s.nv) l v := by
  intro xr
  obtain ⟨-, -, fin, -, hr, rfl, e⟩ := FBstabDense.returned h
  have ex : xr = fin.x := by show (s.solve p x).x.point _ _ _ = _; rw [e, CallerVar.point_ofPoint]
  change F.PrimalFinite (s.problem p) s.options.infeasTol xr.l xr.v at hf
  obtain ⟨h1, h2⟩ := Core.claims_ne (.inl hs)
  obtain ⟨-, st, -, -, -, hp, -⟩ := hr.lastCheck h1 h2
  rw [ex] at hf ⊢
  exact (Rounding.denseFeas hz hq).primal (N := 4 * (s.nz + s.nl + s.nv) + 8) (by omega)
    ⟨by omega, rfl, hg⟩ le_rfl ht h0 hf (hp.1 hs)

/-- C63, primal, FBstabMpc. -/
theorem C63_primal_mpc (F : Rounding K u eta) (s : FBstabMpc K) (hx : 0 < s.nx) (p : MpcProblem K)
    (x : CallerVar K) (q : Ocp s.N s.nx s.nu s.nc) (hq : F.ReadsMpc (p.toData s.N s.nx s.nu s.nc) q)
    (hg : roundOff u ((s.N + 1) * (s.nx + s.nu)) ((s.N + 1) * s.nx) ((s.N + 1) * s.nc) < 1)
    (tol : ℝ) (ht : F.toReal s.options.infeasTol = some tol) (h0 : 0 ≤ tol)
    (out : SolverOut K) (h : (s.solve p x).result = .ok out) (hs : out.eflag.claimsPrimal)
    (hf : F.PrimalFinite (s.problem p) s.options.infeasTol
      ((s.solve p x).x.point ((s.N + 1) * (s.nx + s.nu)) ((s.N + 1) * s.nx) ((s.N + 1) * s.nc)).l
      ((s.solve p x).x.point ((s.N + 1) * (s.nx + s.nu)) ((s.N + 1) * s.nx) ((s.N + 1) * s.nc)).v) :
    let nz := (s.N + 1) * (s.nx + s.nu)
    let nl := (s.N + 1) * s.nx
    let nv := (s.N + 1) * s.nc
    let xr := (s.solve p x).x.point nz nl nv
    ∃ l v, F.Reads xr.l l ∧ F.Reads xr.v v ∧ q.toQP.RoundedPrimalCertificate tol (roundOff u nz nl nv)
      (underFlow eta nz nl nv) l v := by
  intro nz nl nv xr
  obtain ⟨-, -, fin, -, hr, rfl, e⟩ := FBstabMpc.returned F.beqOk.zero h
  have ex : xr = fin.x := by show (s.solve p x).x.point _ _ _ = _; rw [e, CallerVar.point_ofPoint]
  change F.PrimalFinite (s.problem p) s.options.infeasTol xr.l xr.v at hf
  obtain ⟨h1, h2⟩ := Core.claims_ne (.inl hs)
  obtain ⟨-, st, -, -, -, hp, -⟩ := hr.lastCheck h1 h2
  rw [ex] at hf ⊢
  exact (Rounding.mpcFeas hx hq).primal (N := 4 * (nz + nl + nv) + 8) (by omega)
    ⟨by omega, rfl, hg⟩ le_rfl ht h0 hf (hp.1 hs)

/-- C63, dual, FBstabDense: the same for a flag that claims dual infeasibility and the returned `z`.
Because `DenseData` multiplies old contents of the checker's workspaces by 0, these must be finite: at the
start of the call, and after each of the earlier checks of the call. -/
theorem C63_dual_dense (F : Rounding K u eta) (s : FBstabDense K) (hz : 0 < s.nz) (p : DenseProblem K)
    (x : CallerVar K) (q : QP s.nz s.nl s.nv) (hq : F.ReadsDense (p.toData s.nz s.nl s.nv) q)
    (hg : roundOff u s.nz s.nl s.nv < 1) (tol eps : ℝ) (ht : F.toReal s.options.infeasTol = some tol)
    (h0 : 0 ≤ tol) (he : F.toReal (1e-14 : K) = some eps)
    (out : SolverOut K) (h : (s.solve p x).result = .ok out) (hs : out.eflag.claimsDual)
    (hw : F.WsFinite s.mem.feas.ws)
    (hw' : ∀ k < out.proxIters, let a := s.proxIterate p x k
      let b := s.proxIterate p x (k + 1)
      ∃ r, F.Reads (multiplierSum (s.problem p) (b.l + (-1 : K) * a.l) (b.v + (-1 : K) * a.v)) r)
    (hf : F.DualFinite (s.problem p) s.options.infeasTol ((s.solve p x).x.point s.nz s.nl s.nv).z) :
    let xr := (s.solve p x).x.point s.nz s.nl s.nv
    ∃ z, F.Reads xr.z z ∧ q.RoundedDualCertificate tol eps (roundOff u s.nz s.nl s.nv)
      (underFlow eta s.nz s.nl s.nv) z := by
  intro xr
  obtain ⟨hfit, hy, fin, -, hr, rfl, e⟩ := FBstabDense.returned h
  have ex : xr = fin.x := by show (s.solve p x).x.point _ _ _ = _; rw [e, CallerVar.point_ofPoint]
  change F.DualFinite (s.problem p) s.options.infeasTol xr.z at hf
  obtain ⟨h1, h2⟩ := Core.claims_ne (.inr hs)
  obtain ⟨tol0, st, htol, hst, -, -, hd⟩ := hr.lastCheck h1 h2
  rw [ex] at hf ⊢
  have hws : F.WsFinite st.ws := by
    refine hst.wsFinite F ⟨_, Rounding.dense_axpyh hq⟩ ⟨_, Rounding.dense_axpyb hq⟩ hw fun k hk a b ha hb => ?_
    have := hw' k hk
    simp only [FBstabDense.proxIterate_eq hfit hy htol ha, FBstabDense.proxIterate_eq hfit hy htol hb] at this
    exact this
  exact (Rounding.denseFeas hz hq).dual (N := 4 * (s.nz + s.nl + s.nv) + 8) (by omega)
    ⟨by omega, rfl, hg⟩ le_rfl ht h0 he hws hf (hd.1 hs)

/-- C63, dual, FBstabMpc.  Nothing needs to be known of the workspaces. -/
theorem C63_dual_mpc (F : Rounding K u eta) (s : FBstabMpc K) (hx : 0 < s.nx) (p : MpcProblem K)
    (x : CallerVar K) (q : Ocp s.N s.nx s.nu s.nc) (hq : F.ReadsMpc (p.toData s.N s.nx s.nu s.nc) q)
    (hg : roundOff u ((s.N + 1) * (s.nx + s.nu)) ((s.N + 1) * s.nx) ((s.N + 1) * s.nc) < 1)
    (tol eps : ℝ) (ht : F.toReal s.options.infeasTol = some tol) (h0 : 0 ≤ tol)
    (he : F.toReal (1e-14 : K) = some eps)
    (out : SolverOut K) (h : (s.solve p x).result = .ok out) (hs : out.eflag.claimsDual)
    (hf : F.DualFinite (s.problem p) s.options.infeasTol
      ((s.solve p x).x.point ((s.N + 1) * (s.nx + s.nu)) ((s.N + 1) * s.nx) ((s.N + 1) * s.nc)).z) :
    let nz := (s.N + 1) * (s.nx + s.nu)
    let nl := (s.N + 1) * s.nx
    let nv := (s.N + 1) * s.nc
    let xr := (s.solve p x).x.point nz nl nv
    ∃ z, F.Reads xr.z z ∧ q.toQP.RoundedDualCertificate tol eps (roundOff u nz nl nv)
      (underFlow eta nz nl nv) z := by
  intro nz nl nv xr
  obtain ⟨-, -, fin, -, hr, rfl, e⟩ := FBstabMpc.returned F.beqOk.zero h
  have ex : xr = fin.x := by show (s.solve p x).x.point _ _ _ = _; rw [e, CallerVar.point_ofPoint]
  change F.DualFinite (s.problem p) s.options.infeasTol xr.z at hf
  obtain ⟨h1, h2⟩ := Core.claims_ne (.inr hs)
  obtain ⟨-, st, -, -, -, -, hd⟩ := hr.lastCheck h1 h2
  rw [ex] at hf ⊢
  exact (Rounding.mpcFeas hx hq).dual (N := 4 * (nz + nl + nv) + 8) (by omega)
    ⟨by omega, rfl, hg⟩ le_rfl ht h0 he trivial hf (hd.1 hs)

/-! ### What the rounded certificates prove -/

/-- C63: with a rounded primal certificate with `v >= 0`, every feasible point is large: no point satisfies the
constraints unless `sum_i (error of row i) |z_i|` reaches `-(b'v + h'l)`. -/
theorem C63_far_primal {nz nl nv : Nat} (q : QP nz nl nv) {tol g w : ℝ} {l v}
    (h : q.RoundedPrimalCertificate tol g w l v) (hv : ∀ i, 0 ≤ v i) (z) (hz : q.Feasible z) :
    -(q.b ⬝ᵥ v + q.h ⬝ᵥ l) ≤
      ∑ i, ((1 + g) * (tol * max ‖v‖ ‖l‖) + g * q.multiplierSize l v i + w) * |z i| := by
  have h1 : (q.Aᵀ *ᵥ v + q.Gᵀ *ᵥ l) ⬝ᵥ z ≤ q.b ⬝ᵥ v + q.h ⬝ᵥ l := by
    rw [add_dotProduct, QP.transpose_dot, QP.transpose_dot]
    refine add_le_add ?_ (le_of_eq ?_)
    · rw [dotProduct_comm]
      exact Finset.sum_le_sum fun i _ => mul_le_mul_of_nonneg_right (hz.ineq i) (hv i)
    · rw [hz.eq, dotProduct_comm]
  have h2 : -((q.Aᵀ *ᵥ v + q.Gᵀ *ᵥ l) ⬝ᵥ z) ≤
      ∑ i, ((1 + g) * (tol * max ‖v‖ ‖l‖) + g * q.multiplierSize l v i + w) * |z i| := by
    rw [dotProduct, ← Finset.sum_neg_distrib]
    refine Finset.sum_le_sum fun i _ => ?_
    refine (neg_le_abs _).trans ?_
    rw [abs_mul]
    exact mul_le_mul_of_nonneg_right (h.small i) (abs_nonneg _)
  linarith

/-- C63: with a rounded dual certificate `d`, every dual feasible point is large: no `z, l, v` with `v >= 0`
makes the gradient of the Lagrangian zero unless the errors of `d`, weighted with `|z|`, `|l|` and `v`, reach `-f'd`. -/
theorem C63_far_dual {nz nl nv : Nat} (q : QP nz nl nv) (hH : q.H.IsSymm) {tol eps g w : ℝ} {d}
    (h : q.RoundedDualCertificate tol eps g w d) (z l v) (hv : ∀ i, 0 ≤ v i) (hz : q.lagrangeGrad z l v = 0) :
    -(q.f ⬝ᵥ d) ≤
      (∑ i, |z i| * ((1 + g) * (tol * ‖d‖) + g * (∑ j, |q.H i j| * |d j|) + w)) +
      (∑ i, |l i| * ((1 + g) * (tol * ‖d‖) + g * (∑ j, |q.G i j| * |d j|) + w)) +
      ∑ i, v i * ((1 + g) * (tol * ‖d‖) + g * (∑ j, |q.A i j| * |d j|) + w) := by
  have e : q.lagrangeGrad z l v ⬝ᵥ d = z ⬝ᵥ (q.H *ᵥ d) + q.f ⬝ᵥ d + l ⬝ᵥ (q.G *ᵥ d) + v ⬝ᵥ (q.A *ᵥ d) := by
    unfold QP.lagrangeGrad
    have h1 : (q.H *ᵥ z) ⬝ᵥ d = z ⬝ᵥ (q.H *ᵥ d) := by
      have := QP.transpose_dot q.H z d
      rwa [hH.eq] at this
    rw [add_dotProduct, add_dotProduct, add_dotProduct, QP.transpose_dot, QP.transpose_dot, h1]
  rw [hz, zero_dotProduct] at e
  have h1 : z ⬝ᵥ (q.H *ᵥ d) ≤ ∑ i, |z i| * ((1 + g) * (tol * ‖d‖) + g * (∑ j, |q.H i j| * |d j|) + w) :=
    Finset.sum_le_sum fun i _ => (le_abs_self _).trans (by
      rw [abs_mul]; exact mul_le_mul_of_nonneg_left (h.flat i) (abs_nonneg _))
  have h2 : l ⬝ᵥ (q.G *ᵥ d) ≤ ∑ i, |l i| * ((1 + g) * (tol * ‖d‖) + g * (∑ j, |q.G i j| * |d j|) + w) :=
    Finset.sum_le_sum fun i _ => (le_abs_self _).trans (by
      rw [abs_mul]; exact mul_le_mul_of_nonneg_left (h.eq i) (abs_nonneg _))
  have h3 : v ⬝ᵥ (q.A *ᵥ d) ≤ ∑ i, v i * ((1 + g) * (tol * ‖d‖) + g * (∑ j, |q.A i j| * |d j|) + w) :=
    Finset.sum_le_sum fun i _ => mul_le_mul_of_nonneg_left (h.ineq i) (hv i)
  linarith

end Fbstab
