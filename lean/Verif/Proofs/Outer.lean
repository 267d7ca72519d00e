import Verif.Proofs.ProxMath
import Verif.Proofs.NewtonRun

/-!
# Convergence of the outer loop, provided the subproblems are solved
-/

namespace Fbstab
open Matrix

/-- A point as an element of a Euclidean space. -/
noncomputable def Point.vec {nz nl nv : Nat} (x : Point ℝ nz nl nv) :
    EuclideanSpace ℝ (Fin nz ⊕ Fin nl ⊕ Fin nv) := vec3 x.z.fn x.l.fn x.v.fn

namespace Core
variable {nz nl nv : Nat} {E : Env ℝ nz nl nv} {q : QP nz nl nv}

/-- Why the loop of the subproblem ended. -/
theorem innerLoop_why (E : Env ℝ nz nl nv) (tol sigma Ek : ℝ) (xbar : Point ℝ nz nl nv)
    (fuel : Nat) : ∀ (i : Nat) (t Eo : ℝ) (x : Point ℝ nz nl nv) (newton : Nat) (buf : Vec ℝ 5)
    (rk : Resid ℝ nz nl nv) (o : InnerOut ℝ nz nl nv),
    (innerLoop E tol sigma Ek xbar fuel i t Eo x newton buf rk).2 = .ok o →
    newton + fuel ≤ o.newton ∨ E.opts.maxNewtonIters ≤ (o.newton : Int) ∨
      Resid.norm (E.innerRes o.x xbar sigma) ≤ tol ∨
      Resid.norm (E.innerRes o.x xbar sigma) ≤ E.opts.innerTolMin := by
  induction fuel with
  | zero =>
    intro i t Eo x newton buf rk o h
    simp only [innerLoop] at h
    cases h
    exact .inl (Nat.le_refl _)
  | succ fuel ih =>
    intro i t Eo x newton buf rk o h
    simp only [innerLoop] at h
    split at h
    · rename_i hc
      cases h
      rcases hc with hc | hc
      · exact .inr (.inr (.inl hc.1))
      · exact .inr (.inr (.inr hc))
    · split at h
      · cases h; exact .inr (.inl ‹_›)
      · split at h
        · cases h
        · cases h
        · rcases ih _ _ _ _ _ _ _ _ h with h | h
          · exact .inl (by omega)
          · exact .inr h

/-- The subproblem was solved to its tolerance. -/
structure Accepted (E : Env ℝ nz nl nv) (q : QP nz nl nv) (s : Outer ℝ nz nl nv) (tol : ℝ)
    (o : InnerOut ℝ nz nl nv) : Prop where
  ex : ∃ x : Point ℝ nz nl nv, Marg q x ∧ o.x = projectDuals x ∧
    Resid.norm (E.innerRes x s.xk E.opts.sigma0) ≤ tol

theorem Inner.tol_eq {s : Outer ℝ nz nl nv} {tol o} (h : Inner E s tol o)
    (hmin : E.opts.innerTolMin ≤ E.comboTol) :
    tol = max (min (s.innerTol * E.opts.delta) (Resid.norm (E.penRes s.xk))) E.opts.innerTolMin := by
  have h1 : E.comboTol < Resid.norm (E.penRes s.xk) := not_le.1 fun hc => h.nostop (.inl hc)
  have h2 := h.htol
  rw [saturate_real (hmin.trans h1.le)] at h2
  injection h2 with h2
  exact h2.symm

theorem Inner.accepted (R : RealEnv E q) {s : Outer ℝ nz nl nv} {tol o} (h : Inner E s tol o)
    (hm : Marg q s.xk) (hmin : E.opts.innerTolMin ≤ E.comboTol)
    (hb : ¬E.opts.maxNewtonIters ≤ (o.newton : Int))
    (hi : o.newton < s.newton + E.opts.maxInnerIters.toNat) : Accepted E q s tol o := by
  obtain ⟨o', h', rfl⟩ := subproblem_ok h.sub
  refine ⟨o'.x, ?_, rfl, ?_⟩
  · refine innerLoop_invariant E tol E.opts.sigma0 _ s.xk (Marg q) ?_ _ _ _ _ _ _ _ _ _ hm h'
    rintro x x' hx ⟨g, r, t, hg, rfl⟩
    exact Marg.axpy R.ops hx (R.margin hg r) t
  · have htol : E.opts.innerTolMin ≤ tol := by rw [h.tol_eq hmin]; exact le_max_right _ _
    rcases innerLoop_why _ _ _ _ _ _ _ _ _ _ _ _ _ _ h' with h1 | h1 | h1 | h1
    · exact absurd h1 (not_le.2 hi)
    · exact absurd h1 hb
    · exact h1
    · exact h1.trans htol

/-- The residual parts of a point whose multipliers are nonnegative and whose slacks and multipliers
are bounded. -/
theorem penRes_le (I : q.Implements E.ops) (ha : 0 < E.opts.alpha) (ha' : E.opts.alpha < 1)
    {x : Point ℝ nz nl nv} (hm : Marg q x) {B : ℝ} (hB : 0 ≤ B) (hv : ∀ i, 0 ≤ x.v i)
    (hy : ∀ i, x.y i ≤ B) (hv' : ∀ i, x.v i ≤ B) :
    Resid.norm (E.penRes x) ≤ (1 + B) * ‖vec3 (q.lagrangeGrad x.z.fn x.l.fn x.v.fn)
      (q.h - q.G *ᵥ x.z.fn) (fun i => min (q.b i - (q.A *ᵥ x.z.fn) i) (x.v i))‖ := by
  have e : Resid.norm (E.penRes x) = residualNorm E.ops E.opts.alpha x := rfl
  rw [e, residualNorm, norm3_vec3, I.gradLagrangian, I.eqDefect]
  have e2 : (1 + B) * ‖vec3 (q.lagrangeGrad x.z.fn x.l.fn x.v.fn)
      (q.h - q.G *ᵥ x.z.fn) (fun i => min (q.b i - (q.A *ᵥ x.z.fn) i) (x.v i))‖ =
      ‖(1 + B) • vec3 (q.lagrangeGrad x.z.fn x.l.fn x.v.fn)
      (q.h - q.G *ᵥ x.z.fn) (fun i => min (q.b i - (q.A *ᵥ x.z.fn) i) (x.v i))‖ := by
    rw [norm_smul, Real.norm_of_nonneg (by positivity)]
  rw [e2, vec3_smul]
  have grow : ∀ a : ℝ, |a| ≤ |(1 + B) * a| := by
    intro a
    rw [abs_mul, abs_of_nonneg (by positivity : 0 ≤ 1 + B)]
    nlinarith [abs_nonneg a]
  refine vec3_mono (fun i => grow _) (fun i => grow _) (fun i => ?_)
  show |(penalizedMin E.opts.alpha x.y x.v) i| ≤ |(1 + B) * min (q.b i - (q.A *ᵥ x.z.fn) i) (x.v i)|
  have hyi : q.b i - (q.A *ᵥ x.z.fn) i = x.y i := (congrFun hm i).symm
  rw [penalizedMin, Vec.get_ofFn, hyi]
  simp only [cmin_eq_min, cmax_eq_max]
  rw [max_eq_right (hv i), abs_mul, abs_of_nonneg (by positivity : 0 ≤ 1 + B)]
  have h1a : 0 ≤ 1 - E.opts.alpha := by linarith
  rcases le_or_gt (x.y i) 0 with hyn | hyp
  · rw [max_eq_left hyn, mul_zero, zero_mul, add_zero, abs_mul, abs_of_pos ha]
    have := abs_nonneg (min (x.y i) (x.v i))
    nlinarith
  · rw [max_eq_right hyp.le]
    have hmn : 0 ≤ min (x.y i) (x.v i) := le_min hyp.le (hv i)
    have hprod : x.y i * x.v i ≤ min (x.y i) (x.v i) * B := by
      rcases le_total (x.y i) (x.v i) with h | h
      · rw [min_eq_left h]; exact mul_le_mul_of_nonneg_left (hv' i) hyp.le
      · rw [min_eq_right h, mul_comm]; exact mul_le_mul_of_nonneg_left (hy i) (hv i)
    have hp0 : 0 ≤ x.y i * x.v i := mul_nonneg hyp.le (hv i)
    rw [abs_of_nonneg hmn, abs_of_nonneg (by
      rw [mul_assoc]
      exact add_nonneg (mul_nonneg ha.le hmn) (mul_nonneg h1a hp0)), mul_assoc]
    have h2 : (1 - E.opts.alpha) * (x.y i * x.v i) ≤ 1 * (min (x.y i) (x.v i) * B) := by
      refine mul_le_mul (by linarith) hprod hp0 (by norm_num)
    nlinarith

/-- One accepted proximal step. -/
theorem Accepted.step (N : NewtonEnv E q) {s : Outer ℝ nz nl nv} {tol o}
    (h : Accepted E q s tol o) {zs ls vs} (hk : q.KKT zs ls vs) :
    ∃ eta mu d Q : ℝ, 0 ≤ eta ∧ 0 ≤ mu ∧ 0 ≤ d ∧ 0 ≤ Q ∧
      eta + mu ≤ q.errFactor E.opts.alpha E.opts.sigma0 * tol ∧
      ‖o.x.vec - vec3 zs ls vs‖ ≤ d + mu ∧
      d ^ 2 + Q ^ 2 ≤ (‖s.xk.vec - vec3 zs ls vs‖ + eta) ^ 2 ∧
      ‖vec3 (q.lagrangeGrad o.x.z.fn o.x.l.fn o.x.v.fn) (q.h - q.G *ᵥ o.x.z.fn)
        (fun i => min (q.b i - (q.A *ᵥ o.x.z.fn) i) (o.x.v i))‖ ≤
          E.opts.sigma0 * Q + E.opts.sigma0 * q.errFactor E.opts.alpha E.opts.sigma0 * tol := by
  obtain ⟨x, hm, hox, hn⟩ := h.ex
  have ha := N.inRange.alpha_pos
  have ha' := N.inRange.alpha_lt
  obtain ⟨i1, i2, i3⟩ := innerRes_fn (E := E) N.ops x s.xk E.opts.sigma0
  have hn' : ‖vec3 (E.innerRes x s.xk E.opts.sigma0).z.fn (E.innerRes x s.xk E.opts.sigma0).l.fn
      (E.innerRes x s.xk E.opts.sigma0).v.fn‖ ≤ tol := by
    rw [← norm3_vec3]; exact hn
  set m : Fin nv → ℝ := fun i => min (q.b i - (q.A *ᵥ x.z.fn) i +
    E.opts.sigma0 * (x.v.fn i - s.xk.v.fn i)) (x.v.fn i) with hmdef
  have hip : q.InexactProx E.opts.sigma0 s.xk.z.fn s.xk.l.fn s.xk.v.fn
      (E.innerRes x s.xk E.opts.sigma0).z.fn (E.innerRes x s.xk E.opts.sigma0).l.fn m
      x.z.fn x.l.fn x.v.fn := ⟨i1.symm, i2.symm, fun i => rfl⟩
  have hr : ‖vec3 (E.innerRes x s.xk E.opts.sigma0).z.fn (E.innerRes x s.xk E.opts.sigma0).l.fn
      (0 : Fin nv → ℝ)‖ ≤ tol :=
    le_trans (vec3_mono (fun i => le_rfl) (fun i => le_rfl) fun i => by simp) hn'
  have hme : euclid m ≤ 2 * tol / E.opts.alpha := by
    have h1 : E.opts.alpha / 2 * euclid m ≤ tol := by
      have e : E.opts.alpha / 2 * euclid m = euclid ((E.opts.alpha / 2) • m) := by
        rw [euclid_smul, abs_of_pos (by positivity)]
      rw [e]
      refine le_trans (euclid_mono (b := (E.innerRes x s.xk E.opts.sigma0).v.fn) fun i => ?_)
        (le_trans (euclid_le_vec3 _ _ _).2.2 hn')
      have e2 : (E.innerRes x s.xk E.opts.sigma0).v.fn i = _ := i3 i
      have hyi : x.y i = q.b i - (q.A *ᵥ x.z.fn) i := congrFun hm i
      rw [e2, hyi, Pi.smul_apply, smul_eq_mul, abs_mul, abs_of_pos (by positivity : 0 < E.opts.alpha / 2)]
      exact pfb_min ha ha' _ _
    rw [le_div_iff₀ ha]
    linarith
  obtain ⟨eta, mu, d, Q, g1, g2, g3, g4, g5, g6, g7, g8⟩ :=
    hip.fejer N.convex N.inRange.sigma_pos ha hr hme hk
  have hvfn : (projectDuals x).v.fn = fun i => max (x.v.fn i) 0 := by
    ext i
    show (x.v.cwiseMax 0) i = _
    simp [Vec.cwiseMax]
  refine ⟨eta, mu, d, Q, g1, g2, g3, g4, g5, ?_, g7, ?_⟩
  · rw [hox, Point.vec, hvfn]; exact g6
  · have e : ∀ i, o.x.v i = o.x.v.fn i := fun i => rfl
    simp only [e]
    rw [hox, hvfn]
    exact g8

/-- The tolerances handed out so far. -/
noncomputable def tolPart (o : Params ℝ) (k : Nat) : ℝ :=
  o.innerTolMax * o.delta * (1 - o.delta ^ k) / (1 - o.delta) + k * o.innerTolMin

theorem tolPart_succ {o : Params ℝ} (h : o.delta < 1) (k : Nat) :
    tolPart o (k + 1) = tolPart o k + (o.innerTolMax * o.delta ^ (k + 1) + o.innerTolMin) := by
  unfold tolPart
  have : 1 - o.delta ≠ 0 := by linarith
  field_simp
  push_cast
  ring

theorem tolPart_le {o : Params ℝ} (h0 : 0 ≤ o.delta) (h : o.delta < 1) (hx : 0 ≤ o.innerTolMax)
    (hn : 0 ≤ o.innerTolMin) {k K : Nat} (hk : k ≤ K) : tolPart o k ≤ QP.tolSum o K := by
  unfold tolPart QP.tolSum
  have h1 : 0 < 1 - o.delta := by linarith
  refine add_le_add (div_le_div_of_nonneg_right ?_ h1.le)
    (mul_le_mul_of_nonneg_right (by exact_mod_cast hk) hn)
  have : 0 ≤ o.delta ^ k := pow_nonneg h0 k
  have : 0 ≤ o.innerTolMax * o.delta := mul_nonneg hx h0
  nlinarith

/-- What is known after `k` accepted proximal steps. -/
structure Approach (E : Env ℝ nz nl nv) (q : QP nz nl nv) (zs : Fin nz → ℝ) (ls : Fin nl → ℝ)
    (vs : Fin nv → ℝ) (D M : ℝ) (k0 K k : Nat) (s : Outer ℝ nz nl nv) : Prop where
  marg : Marg q s.xk
  tol : s.innerTol ≤ E.opts.innerTolMax * E.opts.delta ^ k + E.opts.innerTolMin
  near : ‖s.xk.vec - vec3 zs ls vs‖ ≤ D + q.errFactor E.opts.alpha E.opts.sigma0 * tolPart E.opts k
  used : k ≤ k0 ∨ Stop E s ∨ ((k : ℝ) - k0) * q.stepNeeded E.opts E.comboTol D M K ^ 2 ≤
    2 * q.reach E.opts D K * (D + q.errFactor E.opts.alpha E.opts.sigma0 * tolPart E.opts k -
      ‖s.xk.vec - vec3 zs ls vs‖)

theorem Approach.step (N : NewtonEnv E q) (hmin : E.opts.innerTolMin ≤ E.comboTol) {zs ls vs}
    (hk : q.KKT zs ls vs) {D M : ℝ}
    (hM : ∀ i, q.b i - (q.A *ᵥ zs) i ≤ M ∧ vs i ≤ M) (hM0 : 0 ≤ M) {k0 K k : Nat} (hkK : k < K)
    (hsmall : q.errFactor E.opts.alpha E.opts.sigma0 *
      (E.opts.innerTolMax * E.opts.delta ^ (k0 + 1) + E.opts.innerTolMin) ≤
      q.stepNeeded E.opts E.comboTol D M K)
    {s s' : Outer ℝ nz nl nv} {tol o} (h : Approach E q zs ls vs D M k0 K k s)
    (hs : Step E s s' tol o) (hacc : Accepted E q s tol o) :
    Approach E q zs ls vs D M k0 K (k + 1) s' := by
  have hr := N.inRange
  have hsig := hr.sigma_pos
  have ha := hr.alpha_pos
  have ha' := hr.alpha_lt
  have hd0 : 0 ≤ E.opts.delta := le_trans (by norm_num) hr.delta.1
  have hd1 : E.opts.delta < 1 := lt_of_le_of_lt hr.delta.2 (by norm_num)
  have hx0 : 0 ≤ E.opts.innerTolMax := le_trans (by norm_num) hr.innerTolMax.1
  have hn0 : 0 ≤ E.opts.innerTolMin := le_trans (by norm_num) hr.innerTolMin.1
  have hkap := q.errFactor_pos ha hsig
  set kap := q.errFactor E.opts.alpha E.opts.sigma0 with hkapdef
  set tau := E.opts.innerTolMax * E.opts.delta ^ (k + 1) + E.opts.innerTolMin with htau
  have htol : tol ≤ tau := by
    rw [hs.toInner.tol_eq hmin]
    refine max_le ((min_le_left _ _).trans ?_) ?_
    · have h1 := mul_le_mul_of_nonneg_right h.tol hd0
      have h2 : E.opts.innerTolMin * E.opts.delta ≤ E.opts.innerTolMin := by nlinarith
      have e : (E.opts.innerTolMax * E.opts.delta ^ k + E.opts.innerTolMin) * E.opts.delta =
        E.opts.innerTolMax * E.opts.delta ^ (k + 1) + E.opts.innerTolMin * E.opts.delta := by ring
      linarith
    · have : 0 ≤ E.opts.innerTolMax * E.opts.delta ^ (k + 1) := by positivity
      linarith
  obtain ⟨eta, mu, d, Q, g1, g2, g3, g4, g5, g6, g7, g8⟩ := hacc.step N hk
  have hks := mul_le_mul_of_nonneg_left htol hkap.le
  have hpart : kap * tolPart E.opts (k + 1) = kap * tolPart E.opts k + kap * tau := by
    rw [tolPart_succ hd1, mul_add]
  have hR : D + kap * tolPart E.opts (k + 1) ≤ q.reach E.opts D K := by
    unfold QP.reach
    have := mul_le_mul_of_nonneg_left (tolPart_le hd0 hd1 hx0 hn0 (Nat.succ_le_of_lt hkK)) hkap.le
    linarith
  have hDk := h.near
  set Dk := ‖s.xk.vec - vec3 zs ls vs‖ with hDkdef
  have hDk0 : 0 ≤ Dk := norm_nonneg _
  have hdle : d ≤ Dk + eta := by
    refine abs_le_of_sq_le_sq' ?_ (by linarith) |>.2
    nlinarith [sq_nonneg Q]
  rw [hs.eq]
  have hxk : (next E s tol o).xk = o.x := rfl
  have hmo : Marg q o.x := Marg.subproblem N.toRealEnv h.marg hs.sub
  have hnear : ‖o.x.vec - vec3 zs ls vs‖ ≤ D + kap * tolPart E.opts (k + 1) := by
    rw [hpart]
    linarith
  refine ⟨hmo, htol, hnear, ?_⟩
  by_cases hst : Stop E (next E s tol o)
  · exact .inr (.inl hst)
  by_cases hk0 : k + 1 ≤ k0
  · exact .inl hk0
  refine .inr (.inr ?_)
  rw [hxk]
  set D' := ‖o.x.vec - vec3 zs ls vs‖ with hD'def
  -- the step is long
  have hlong : q.stepNeeded E.opts E.comboTol D M K ≤ Q := by
    have hres : E.comboTol < Resid.norm (E.penRes o.x) := not_le.1 fun hc => hst (.inl hc)
    have hR0 : 0 ≤ q.reach E.opts D K := le_trans (le_trans (norm_nonneg _) hnear) hR
    have hA := q.sizeA_nonneg
    have hD'R := hnear.trans hR
    have hvec : o.x.vec - vec3 zs ls vs = vec3 (o.x.z.fn - zs) (o.x.l.fn - ls) (o.x.v.fn - vs) := by
      rw [Point.vec, vec3_sub]
    obtain ⟨c1, -, c3⟩ := euclid_le_vec3 (o.x.z.fn - zs) (o.x.l.fn - ls) (o.x.v.fn - vs)
    rw [← hvec] at c1 c3
    have hv : ∀ i, 0 ≤ o.x.v i := by
      obtain ⟨x, -, hox, -⟩ := hacc.ex
      intro i
      rw [hox]
      show 0 ≤ (x.v.cwiseMax 0) i
      simp [Vec.cwiseMax]
    have hy : ∀ i, o.x.y i ≤ M + (1 + q.sizeA) * q.reach E.opts D K := by
      intro i
      have e1 : o.x.y i = q.b i - (q.A *ᵥ o.x.z.fn) i := congrFun hmo i
      have e2 : (q.A *ᵥ o.x.z.fn) i = (q.A *ᵥ zs) i + (q.A *ᵥ (o.x.z.fn - zs)) i := by
        rw [mulVec_sub, Pi.sub_apply]; ring
      have e3 := (abs_le.1 (abs_le_euclid (q.A *ᵥ (o.x.z.fn - zs)) i)).1
      have e4 := q.sizeA_mul (o.x.z.fn - zs)
      have e5 := mul_le_mul_of_nonneg_left (c1.trans hD'R) hA
      have := (hM i).1
      rw [e1, e2]
      linarith
    have hv' : ∀ i, o.x.v i ≤ M + (1 + q.sizeA) * q.reach E.opts D K := by
      intro i
      have e3 := (abs_le.1 (abs_le_euclid (o.x.v.fn - vs) i)).2
      have e4 : (o.x.v.fn - vs) i = o.x.v i - vs i := rfl
      have e5 := mul_nonneg hA hR0
      have := (hM i).2
      rw [e4] at e3
      linarith
    have hB : 0 ≤ M + (1 + q.sizeA) * q.reach E.opts D K := by positivity
    have hp := penRes_le N.ops ha ha' hmo hB hv hy hv'
    have hC : 0 < 1 + M + (1 + q.sizeA) * q.reach E.opts D K := by linarith
    have hsm : kap * tol ≤ q.stepNeeded E.opts E.comboTol D M K := by
      refine le_trans (hks.trans ?_) hsmall
      refine mul_le_mul_of_nonneg_left ?_ hkap.le
      have := pow_le_pow_of_le_one hd0 hd1.le (show k0 + 1 ≤ k + 1 by omega)
      have := mul_le_mul_of_nonneg_left this hx0
      linarith
    have h1 : E.comboTol < (1 + M + (1 + q.sizeA) * q.reach E.opts D K) *
        (E.opts.sigma0 * Q + E.opts.sigma0 * kap * tol) := by
      refine lt_of_lt_of_le hres (hp.trans ?_)
      rw [← add_assoc]
      exact mul_le_mul_of_nonneg_left g8 hC.le
    have h2 : E.comboTol = 2 * q.stepNeeded E.opts E.comboTol D M K *
        ((1 + M + (1 + q.sizeA) * q.reach E.opts D K) * E.opts.sigma0) := by
      unfold QP.stepNeeded
      field_simp
    have hCs : 0 < (1 + M + (1 + q.sizeA) * q.reach E.opts D K) * E.opts.sigma0 := by positivity
    have h3 : 2 * q.stepNeeded E.opts E.comboTol D M K *
        ((1 + M + (1 + q.sizeA) * q.reach E.opts D K) * E.opts.sigma0) <
        (Q + kap * tol) * ((1 + M + (1 + q.sizeA) * q.reach E.opts D K) * E.opts.sigma0) := by
      rw [← h2]
      refine lt_of_lt_of_eq h1 ?_
      ring
    have h4 := lt_of_mul_lt_mul_right h3 hCs.le
    linarith
  -- and uses up room
  have hstep0 : 0 ≤ q.stepNeeded E.opts E.comboTol D M K := by
    refine le_trans ?_ hsmall
    positivity
  have hQ2 : q.stepNeeded E.opts E.comboTol D M K ^ 2 ≤
      2 * q.reach E.opts D K * (Dk + kap * tau - D') := by
    have h1 : q.stepNeeded E.opts E.comboTol D M K ^ 2 ≤ Q ^ 2 := pow_le_pow_left₀ hstep0 hlong 2
    have h2 : Q ^ 2 ≤ (Dk + eta + d) * (Dk + eta - d) := by nlinarith
    have h3 : Dk + eta + d ≤ 2 * q.reach E.opts D K := by linarith
    have h4 : Dk + eta - d ≤ Dk + kap * tau - D' := by linarith
    have h5 : 0 ≤ Dk + eta - d := by linarith
    have h6 : 0 ≤ 2 * q.reach E.opts D K := le_trans (by linarith) h3
    calc _ ≤ Q ^ 2 := h1
      _ ≤ (Dk + eta + d) * (Dk + eta - d) := h2
      _ ≤ 2 * q.reach E.opts D K * (Dk + eta - d) := mul_le_mul_of_nonneg_right h3 h5
      _ ≤ _ := mul_le_mul_of_nonneg_left h4 h6
  rw [hpart]
  have hR0 : 0 ≤ q.reach E.opts D K := le_trans (le_trans (norm_nonneg _) hnear) hR
  rcases h.used with hu | hu | hu
  · have hkk : k = k0 := by omega
    subst hkk
    have h1 : 2 * q.reach E.opts D K * (Dk + kap * tau - D') ≤
        2 * q.reach E.opts D K * (D + (kap * tolPart E.opts k + kap * tau) - D') :=
      mul_le_mul_of_nonneg_left (by linarith) (by linarith)
    push_cast
    have e : (k : ℝ) + 1 - k = 1 := by ring
    rw [e, one_mul]
    linarith
  · exact absurd hu hs.nostop
  · push_cast
    have e : ((k : ℝ) + 1 - k0) * q.stepNeeded E.opts E.comboTol D M K ^ 2 =
      ((k : ℝ) - k0) * q.stepNeeded E.opts E.comboTol D M K ^ 2 +
        q.stepNeeded E.opts E.comboTol D M K ^ 2 := by ring
    rw [e]
    have e2 : 2 * q.reach E.opts D K * (D + (kap * tolPart E.opts k + kap * tau) - D') =
      2 * q.reach E.opts D K * (D + kap * tolPart E.opts k - Dk) +
        2 * q.reach E.opts D K * (Dk + kap * tau - D') := by ring
    rw [e2]
    exact add_le_add hu hQ2

/-- `K` accepted steps without stopping leave no room. -/
theorem Approach.stops (N : NewtonEnv E q) {zs ls vs} {D M : ℝ} {k0 K : Nat}
    (he : q.Enough E.opts E.comboTol D M k0 K) {s : Outer ℝ nz nl nv}
    (h : Approach E q zs ls vs D M k0 K K s) : Stop E s := by
  have hr := N.inRange
  have hd0 : 0 ≤ E.opts.delta := le_trans (by norm_num) hr.delta.1
  have hd1 : E.opts.delta < 1 := lt_of_le_of_lt hr.delta.2 (by norm_num)
  have hx0 : 0 ≤ E.opts.innerTolMax := le_trans (by norm_num) hr.innerTolMax.1
  have hn0 : 0 ≤ E.opts.innerTolMin := le_trans (by norm_num) hr.innerTolMin.1
  have hkap := q.errFactor_pos hr.alpha_pos hr.sigma_pos
  have hR : D + q.errFactor E.opts.alpha E.opts.sigma0 * tolPart E.opts K ≤ q.reach E.opts D K := by
    unfold QP.reach
    have := mul_le_mul_of_nonneg_left (tolPart_le hd0 hd1 hx0 hn0 (Nat.le_refl K)) hkap.le
    linarith
  have hn := norm_nonneg (s.xk.vec - vec3 zs ls vs)
  have hR0 : 0 ≤ q.reach E.opts D K := le_trans (hn.trans h.near) hR
  have hroom := he.room
  rcases h.used with hu | hu | hu
  · exfalso
    have h1 : (K : ℝ) - k0 ≤ 0 := by
      have : (K : ℝ) ≤ k0 := by exact_mod_cast hu
      linarith
    have h2 := mul_nonpos_of_nonpos_of_nonneg h1 (sq_nonneg (q.stepNeeded E.opts E.comboTol D M K))
    have h3 := sq_nonneg (q.reach E.opts D K)
    linarith
  · exact hu
  · exfalso
    have h1 : 2 * q.reach E.opts D K * (D + q.errFactor E.opts.alpha E.opts.sigma0 * tolPart E.opts K -
        ‖s.xk.vec - vec3 zs ls vs‖) ≤ 2 * q.reach E.opts D K * q.reach E.opts D K :=
      mul_le_mul_of_nonneg_left (by linarith) (by linarith)
    nlinarith

/-- The run, if no subproblem is cut short by `max_inner_iters`. -/
theorem Returned.converges (N : NewtonEnv E q) (hmin : E.opts.innerTolMin ≤ E.comboTol)
    (hmm : E.opts.innerTolMin ≤ E.opts.innerTolMax)
    {ws x fin} (hx : Marg q x) {zs ls vs} (hk : q.KKT zs ls vs) {D M : ℝ}
    (hD : ‖x.vec - vec3 zs ls vs‖ ≤ D) (hM : ∀ i, q.b i - (q.A *ᵥ zs) i ≤ M ∧ vs i ≤ M) (hM0 : 0 ≤ M)
    {k0 K : Nat} (he : q.Enough E.opts E.comboTol D M k0 K)
    (hp : (K : Int) < E.opts.maxProxIters)
    (hi : ∀ {k s tol o}, k < K → Steps E k (start E ws x
        (max (min (Resid.norm (E.penRes x)) E.opts.innerTolMax) E.opts.innerTolMin)) s →
      ‖s.xk.vec - vec3 zs ls vs‖ ≤ q.reach E.opts D K → Inner E s tol o →
      ¬E.opts.maxNewtonIters ≤ (o.newton : Int) → o.newton < s.newton + E.opts.maxInnerIters.toNat)
    (h : Returned E ws x fin) :
    (fin.out.eflag = .success ∧ fin.out.proxIters ≤ K ∧
      ‖fin.x.vec - vec3 zs ls vs‖ ≤ q.reach E.opts D K) ∨
    (∃ k s tol o, k < K ∧ Steps E k (start E ws x
        (max (min (Resid.norm (E.penRes x)) E.opts.innerTolMax) E.opts.innerTolMin)) s ∧
      ‖s.xk.vec - vec3 zs ls vs‖ ≤ q.reach E.opts D K ∧
      Inner E s tol o ∧ E.opts.maxNewtonIters ≤ (o.newton : Int) ∧
      fin.out.eflag = .maxIterations ∧ fin.out.newtonIters = o.newton) ∨
    (E.opts.checkFeasibility = true ∧ fin.out.eflag ≠ .success ∧ fin.out.eflag ≠ .maxIterations) := by
  have hr := N.inRange
  have hd0 : 0 ≤ E.opts.delta := le_trans (by norm_num) hr.delta.1
  have hd1 : E.opts.delta < 1 := lt_of_le_of_lt hr.delta.2 (by norm_num)
  have hx0 : 0 ≤ E.opts.innerTolMax := le_trans (by norm_num) hr.innerTolMax.1
  have hn0 : 0 ≤ E.opts.innerTolMin := le_trans (by norm_num) hr.innerTolMin.1
  have hkap := q.errFactor_pos hr.alpha_pos hr.sigma_pos
  obtain ⟨tol, k, s, h0, hs, h⟩ := h.run
  rw [saturate_real hmm] at h0
  injection h0 with h0
  subst h0
  have happ : ∀ {k s'}, k ≤ K → Steps E k (start E ws x
      (max (min (Resid.norm (E.penRes x)) E.opts.innerTolMax) E.opts.innerTolMin)) s' →
      Approach E q zs ls vs D M k0 K k s' := by
    intro k
    induction k with
    | zero =>
      intro s' _ hs
      cases hs
      refine ⟨hx, ?_, ?_, .inl (Nat.zero_le _)⟩
      · simp only [start]
        rw [pow_zero, mul_one]
        refine max_le ((min_le_right _ _).trans (by linarith)) (by linarith)
      · refine hD.trans ?_
        simp [tolPart]
    | succ k ih =>
      intro s' hkK hs
      cases hs with
      | tail h1 h2 =>
        have hap := ih (by omega) h1
        refine hap.step N hmin hk hM hM0 (by omega) he.small h2 ?_
        refine h2.toInner.accepted N.toRealEnv hap.marg hmin h2.below (hi (by omega) h1 ?_ h2.toInner h2.below)
        refine hap.near.trans ?_
        unfold QP.reach
        have := mul_le_mul_of_nonneg_left (tolPart_le (K := K) hd0 hd1 hx0 hn0 (show k ≤ K by omega)) hkap.le
        linarith
  have hreach : ∀ {k s'}, k ≤ K → Approach E q zs ls vs D M k0 K k s' →
      ‖s'.xk.vec - vec3 zs ls vs‖ ≤ q.reach E.opts D K := by
    intro k s' hkK hap
    refine hap.near.trans ?_
    unfold QP.reach
    have := mul_le_mul_of_nonneg_left (tolPart_le (K := K) hd0 hd1 hx0 hn0 hkK) hkap.le
    linarith
  have hkK : k ≤ K := by
    by_contra hgt
    -- a run of `K + 1` steps passes through a state where it stops
    have : ∀ {n s'}, Steps E n (start E ws x
        (max (min (Resid.norm (E.penRes x)) E.opts.innerTolMax) E.opts.innerTolMin)) s' → n ≤ K := by
      intro n
      induction n with
      | zero => intro s' _; omega
      | succ n ih =>
        intro s' hs
        cases hs with
        | tail h1 h2 =>
          have hn := ih h1
          rcases Nat.lt_or_ge n K with hlt | hge
          · omega
          · have : n = K := by omega
            subst this
            exact absurd ((happ (Nat.le_refl _) h1).stops N he) h2.nostop
    exact hgt (this hs)
  have hpk := hs.prox
  simp only [start, Nat.zero_add] at hpk
  have hlt : ∀ {tol o}, Inner E s tol o → k < K := by
    intro tol o hin
    rcases Nat.lt_or_ge k K with hlt | hge
    · exact hlt
    · have : k = K := by omega
      subst this
      exact absurd ((happ (Nat.le_refl _) hs).stops N he) hin.nostop
  rcases h with ⟨hkm, h⟩ | ⟨hkm, rfl⟩
  · cases h with
    | success hst =>
      refine .inl ⟨rfl, ?_, hreach hkK (happ hkK hs)⟩
      show s.prox ≤ K
      omega
    | newton hi hn' x' hx' =>
      exact .inr (.inl ⟨k, s, _, _, hlt hi, hs, hreach hkK (happ hkK hs), hi, hn', rfl, rfl⟩)
    | infeasible hi hn' hc hf =>
      refine .inr (.inr ⟨hc, (flagOf_ne_success _).2 hf, ?_⟩)
      show flagOf (check E s _) ≠ .maxIterations
      cases check E s _ <;> simp [flagOf]
  · omega

end Core
end Fbstab
