import Verif.Proofs.ShiftInner
import Verif.Proofs.Alternative
import Verif.Props.Duality
import Verif.Props.Convergence
import Mathlib.LinearAlgebra.Matrix.DotProduct
import Mathlib.Analysis.Complex.ExponentialBounds

/-!
# C58: problems without a solution are noticed
-/

namespace Fbstab
open Matrix

namespace QP
variable {nz nl nv : Nat} {q : QP nz nl nv}

theorem LeastShift.contradiction {sz : Fin nz → ℝ} {sl : Fin nl → ℝ} {sv : Fin nv → ℝ}
    (h : q.LeastShift sz sl sv) (hne : 0 < sl ⬝ᵥ sl + sv ⬝ᵥ sv) : q.Contradiction sl sv :=
  ⟨h.cancel, h.sign, by rw [h.violation]; linarith⟩

theorem LeastShift.recession {sz : Fin nz → ℝ} {sl : Fin nl → ℝ} {sv : Fin nv → ℝ}
    (h : q.LeastShift sz sl sv) (hne : 0 < sz ⬝ᵥ sz) : q.Recession sz :=
  ⟨h.flat, h.eq, h.ineq, by rw [h.slope]; linarith⟩

theorem Recession.not_dualFeasible (hH : q.H.IsSymm) {d} (h : q.Recession d) (z l v) :
    ¬q.DualFeasible z l v := by
  intro hd
  have h1 : (q.H *ᵥ z + q.f + q.Gᵀ *ᵥ l + q.Aᵀ *ᵥ v) ⬝ᵥ d = 0 := by rw [hd.stationary, zero_dotProduct]
  have h2 : (q.H *ᵥ z) ⬝ᵥ d = 0 := by
    conv_lhs => rw [← hH.eq]
    rw [QP.transpose_dot, h.flat, dotProduct_zero]
  rw [add_dotProduct, add_dotProduct, add_dotProduct, QP.transpose_dot, QP.transpose_dot, h2, h.eq,
    dotProduct_zero] at h1
  have h3 : v ⬝ᵥ q.A *ᵥ d ≤ 0 := Finset.sum_nonpos fun i _ =>
    mul_nonpos_of_nonneg_of_nonpos (hd.sign i) (h.ineq i)
  have := h.descent
  linarith

end QP

/-- C58: every convex problem has a least shift, and the shifted problem has a solution. -/
theorem C58_shift {nz nl nv : Nat} (q : QP nz nl nv) (hc : q.Convex) :
    ∃ sz sl sv, q.LeastShift sz sl sv ∧ ∃ zs ls vs, (q.shifted sz sl sv).KKT zs ls vs := by
  obtain ⟨sz, sl, sv, h1, h2⟩ := hc.exists_shift
  exact ⟨sz, sl, sv, h1, h2⟩

/-- C58: the least shift is the smallest one: a shift that makes the constraints consistent is at least as
long as its part `(sl, sv)`, and one that makes the dual constraints consistent at least as long as `sz`. -/
theorem C58_least {nz nl nv : Nat} (q : QP nz nl nv) (hc : q.Convex) (sz sl sv)
    (h : q.LeastShift sz sl sv) (tz tl tv) :
    ((∃ z, (q.shifted tz tl tv).Feasible z) → sl ⬝ᵥ sl + sv ⬝ᵥ sv ≤ tl ⬝ᵥ tl + tv ⬝ᵥ tv) ∧
    ((∃ z l v, (q.shifted tz tl tv).DualFeasible z l v) → sz ⬝ᵥ sz ≤ tz ⬝ᵥ tz) := by
  have key : ∀ {n : Nat} (a b : Fin n → ℝ), 2 * (a ⬝ᵥ b) ≤ a ⬝ᵥ a + b ⬝ᵥ b := by
    intro n a b
    have := dot_self_nonneg (a - b)
    rw [sub_dotProduct, dotProduct_sub, dotProduct_sub, dotProduct_comm b a] at this
    linarith
  constructor
  · rintro ⟨z, hz⟩
    have heq : q.G *ᵥ z = q.h + tl := hz.eq
    have hin : ∀ i, (q.A *ᵥ z) i ≤ q.b i + tv i := hz.ineq
    have h1 : (q.Gᵀ *ᵥ sl + q.Aᵀ *ᵥ sv) ⬝ᵥ z = 0 := by rw [h.cancel, zero_dotProduct]
    rw [add_dotProduct, QP.transpose_dot, QP.transpose_dot, heq, dotProduct_add] at h1
    have h2 : sv ⬝ᵥ q.A *ᵥ z ≤ sv ⬝ᵥ (q.b + tv) := Finset.sum_le_sum fun i _ =>
      mul_le_mul_of_nonneg_left (hin i) (h.sign i)
    rw [dotProduct_add] at h2
    have h3 := h.violation
    rw [dotProduct_comm q.h, dotProduct_comm q.b] at h3
    have := key sl tl
    have := key sv tv
    linarith
  · rintro ⟨z, l, v, hd⟩
    have hst : q.H *ᵥ z + (q.f + tz) + q.Gᵀ *ᵥ l + q.Aᵀ *ᵥ v = 0 := hd.stationary
    have h1 : (q.H *ᵥ z + (q.f + tz) + q.Gᵀ *ᵥ l + q.Aᵀ *ᵥ v) ⬝ᵥ sz = 0 := by rw [hst, zero_dotProduct]
    have h2 : (q.H *ᵥ z) ⬝ᵥ sz = 0 := by
      conv_lhs => rw [← hc.symm.eq]
      rw [QP.transpose_dot, h.flat, dotProduct_zero]
    rw [add_dotProduct, add_dotProduct, add_dotProduct, add_dotProduct, QP.transpose_dot, QP.transpose_dot, h2,
      h.eq, dotProduct_zero, h.slope] at h1
    have h3 : v ⬝ᵥ q.A *ᵥ sz ≤ 0 := Finset.sum_nonpos fun i _ =>
      mul_nonpos_of_nonneg_of_nonpos (hd.sign i) (h.ineq i)
    have := key tz sz
    linarith

/-- C58: a convex problem has a solution (a KKT point) exactly if it and its dual are feasible; otherwise
there is a contradictory combination of the constraints or a direction of recession with descent. -/
theorem C58_alternative {nz nl nv : Nat} (q : QP nz nl nv) (hc : q.Convex) :
    ((∃ z l v, q.KKT z l v) ↔ (∃ z, q.Feasible z) ∧ ∃ z l v, q.DualFeasible z l v) ∧
    ((∃ z, q.Feasible z) ↔ ¬∃ l v, q.Contradiction l v) ∧
    ((∃ z l v, q.DualFeasible z l v) ↔ ¬∃ d, q.Recession d) := by
  obtain ⟨sz, sl, sv, hs, zs, ls, vs, hk⟩ := hc.exists_shift
  have hz : (¬∃ d, q.Recession d) → sz = 0 := by
    intro h
    by_contra hne
    refine h ⟨sz, hs.recession ?_⟩
    exact lt_of_le_of_ne (dot_self_nonneg sz) fun h0 => hne (dotProduct_self_eq_zero.1 h0.symm)
  have hlv : (¬∃ l v, q.Contradiction l v) → sl = 0 ∧ sv = 0 := by
    intro h
    by_contra hne
    refine h ⟨sl, sv, hs.contradiction ?_⟩
    have h1 := dot_self_nonneg sl
    have h2 := dot_self_nonneg sv
    refine lt_of_le_of_ne (by linarith) fun h0 => hne ⟨?_, ?_⟩
    · exact dotProduct_self_eq_zero.1 (by linarith)
    · exact dotProduct_self_eq_zero.1 (by linarith)
  have hfe : (¬∃ l v, q.Contradiction l v) → ∃ z, q.Feasible z := by
    intro h
    obtain ⟨rfl, rfl⟩ := hlv h
    have := hk.feasible
    refine ⟨zs, ?_, fun i => ?_⟩
    · rw [show q.G *ᵥ zs = q.h + 0 from this.eq, add_zero]
    · have h1 : (q.A *ᵥ zs) i ≤ q.b i + 0 := this.ineq i
      linarith
  have hdf : (¬∃ d, q.Recession d) → ∃ z l v, q.DualFeasible z l v := by
    intro h
    have e := hz h
    subst e
    refine ⟨zs, ls, vs, ?_, hk.dual⟩
    have h1 : q.H *ᵥ zs + (q.f + 0) + q.Gᵀ *ᵥ ls + q.Aᵀ *ᵥ vs = 0 := hk.stationary
    rwa [add_zero] at h1
  have hfe' : (∃ z, q.Feasible z) → ¬∃ l v, q.Contradiction l v := fun ⟨z, hz⟩ ⟨_, _, h⟩ => h.infeasible z hz
  have hdf' : (∃ z l v, q.DualFeasible z l v) → ¬∃ d, q.Recession d :=
    fun ⟨z, l, v, hd⟩ ⟨_, h⟩ => h.not_dualFeasible hc.symm z l v hd
  refine ⟨⟨?_, ?_⟩, ⟨hfe', hfe⟩, ⟨hdf', hdf⟩⟩
  · rintro ⟨z, l, v, h⟩
    exact ⟨⟨z, h.feasible⟩, z, l, v, h.stationary, h.dual⟩
  · rintro ⟨h1, h2⟩
    have e1 := hz (hdf' h2)
    obtain ⟨e2, e3⟩ := hlv (hfe' h1)
    subst e1 e2 e3
    refine ⟨zs, ls, vs, ?_⟩
    have e : q.shifted 0 0 0 = q := by
      unfold QP.shifted
      simp
    rwa [e] at hk

namespace Core
variable {nz nl nv : Nat} {E : Env ℝ nz nl nv} {q : QP nz nl nv}

theorem vec3_norm_sqrt (z : Fin nz → ℝ) (l : Fin nl → ℝ) (v : Fin nv → ℝ) :
    ‖vec3 z l v‖ = √(z ⬝ᵥ z + l ⬝ᵥ l + v ⬝ᵥ v) := by
  rw [← vec3_norm_sq, Real.sqrt_sq (norm_nonneg _)]

theorem Returned.noticed (N : NewtonEnv E q) (hmin : E.opts.innerTolMin ≤ E.comboTol)
    (hmm : E.opts.innerTolMin ≤ E.opts.innerTolMax)
    (hl : E.opts.maxNewtonIters ≤ E.opts.maxInnerIters)
    {ws x fin} (hx : Marg q x) {sz sl sv zs ls vs} {D r : ℝ} {k0 K : Nat}
    (hno : q.Noticeable E.opts x.z.fn x.l.fn x.v.fn sz sl sv zs ls vs D r k0 K)
    (h : Returned E ws x fin) :
    (fin.out.proxIters < K ∧ fin.out.eflag ≠ .maxIterations) ∨
    (fin.out.eflag = .maxIterations ∧ (fin.out.newtonIters : Int) = E.opts.maxNewtonIters) := by
  obtain ⟨hcf, hsh, hk, hD0, hD, hmar, he, hp⟩ := hno
  have hnn := N.inRange.maxNewtonIters
  have hD' : ‖x.vec - vec3 zs ls vs‖ ≤ D := by
    refine abs_le_of_sq_le_sq' ?_ hD0 |>.2
    rw [Point.vec, vec3_dist2]
    exact hD
  rcases h.notices N hmin hmm hcf hx hsh hk hD' hmar he hp (fun hk hs hr hin hb => by omega) with
    ⟨h1, h2, h3⟩ | ⟨h1, h2⟩ | ⟨k, s, tol, o, -, h2, -, h3, h4, h5, h6⟩
  · exact .inl ⟨h1, h3⟩
  · exact .inl ⟨h1, by rw [h2]; simp⟩
  · refine .inr ⟨h5, ?_⟩
    have a1 := h2.newton.2.2
    have a2 := h3.newton.2.2
    simp only [start] at a1
    rw [h6]
    omega

/-- The run on a problem without a solution. -/
theorem Returned.detects (N : NewtonEnv E q) (hmin : E.opts.innerTolMin ≤ E.comboTol)
    (hmm : E.opts.innerTolMin ≤ E.opts.innerTolMax)
    {ws x fin} (hx : Marg q x) {sz sl sv zs ls vs} {D r M : ℝ} {k0 K : Nat}
    (hno : q.Noticeable E.opts x.z.fn x.l.fn x.v.fn sz sl sv zs ls vs D r k0 K) (hM0 : 0 ≤ M)
    (hM : q.DriftBound E.opts K sz sv zs vs M)
    (hn : q.NewtonEnough E.opts M (q.driftReach E.opts D K sz sl sv) K)
    (h : Returned E ws x fin) :
    fin.out.proxIters < K ∧ fin.out.eflag ≠ .maxIterations ∧
      (fin.out.newtonIters : ℝ) ≤ K * q.newtonPerProx E.opts M (q.driftReach E.opts D K sz sl sv) := by
  obtain ⟨hcf, hsh, hk, hD0, hD, hmar, he, hp⟩ := hno
  have hr := N.inRange
  have hd0 : 0 ≤ E.opts.delta := le_trans (by norm_num) hr.delta.1
  have hd1 : E.opts.delta < 1 := lt_of_le_of_lt hr.delta.2 (by norm_num)
  have hx0 : 0 ≤ E.opts.innerTolMax := le_trans (by norm_num) hr.innerTolMax.1
  have hn0 : 0 ≤ E.opts.innerTolMin := le_trans (by norm_num) hr.innerTolMin.1
  have hkap := q.errFactor_pos hr.alpha_pos hr.sigma_pos
  have hsig := hr.sigma_pos
  have hD' : ‖x.vec - vec3 zs ls vs‖ ≤ D := by
    refine abs_le_of_sq_le_sq' ?_ hD0 |>.2
    rw [Point.vec, vec3_dist2]
    exact hD
  set rho := q.driftReach E.opts D K sz sl sv with hrho
  set npp := q.newtonPerProx E.opts M rho with hnpp
  have ctx : ∀ {k : Nat} {s : Outer ℝ nz nl nv}, k < K →
      ‖s.xk.vec - rayPoint E.opts.sigma0 zs sz ls sl vs sv k‖ ≤ q.reach E.opts D K →
      SubCtx E q s.xk M rho := by
    intro k s hkK hnear
    have ht : (0 : ℝ) ≤ ((k + 1 : ℕ) : ℝ) * E.opts.sigma0⁻¹ := by positivity
    have htK : ((k + 1 : ℕ) : ℝ) * E.opts.sigma0⁻¹ ≤ K * E.opts.sigma0⁻¹ := by
      refine mul_le_mul_of_nonneg_right ?_ (inv_nonneg.2 hsig.le)
      exact_mod_cast hkK
    refine SubCtx.ofShift N (hsh.ray N.convex.symm hk ht) hM0 (fun i => ?_) (r := q.reach E.opts D K) ?_ ?_
      hn.band hn.linesearch
    · obtain ⟨m1, m2⟩ := hM i
      rw [mulVec_add, mulVec_smul, Pi.add_apply, Pi.smul_apply, smul_eq_mul] at m1 ⊢
      have h1 := mul_le_mul_of_nonpos_right htK (hsh.ineq i)
      have h2 := mul_le_mul_of_nonneg_right htK (hsh.sign i)
      refine ⟨by linarith, ?_⟩
      simp only [Pi.add_apply, Pi.smul_apply, smul_eq_mul]
      linarith
    · have e : s.xk.vec + E.opts.sigma0⁻¹ • vec3 sz sl sv -
          vec3 (zs + (((k + 1 : ℕ) : ℝ) * E.opts.sigma0⁻¹) • sz) (ls + (((k + 1 : ℕ) : ℝ) * E.opts.sigma0⁻¹) • sl)
            (vs + (((k + 1 : ℕ) : ℝ) * E.opts.sigma0⁻¹) • sv) =
          s.xk.vec - rayPoint E.opts.sigma0 zs sz ls sl vs sv k := by
        unfold rayPoint
        rw [← vec3_add, ← vec3_add, ← vec3_smul, ← vec3_smul]
        push_cast
        rw [add_mul, one_mul, add_smul]
        abel
      rw [e]
      exact hnear
    · rw [hrho, QP.driftReach, vec3_norm_sqrt]
  have hin : ∀ {k : Nat} {s : Outer ℝ nz nl nv} {tol o}, k < K → Marg q s.xk →
      ‖s.xk.vec - rayPoint E.opts.sigma0 zs sz ls sl vs sv k‖ ≤ q.reach E.opts D K →
      Inner E s tol o → o.newton < s.newton + E.opts.maxInnerIters.toNat := by
    intro k s tol o hkK hms hnear hi
    have h1 := (ctx hkK hnear).count hms hi
    have h2 := hn.inner
    have h3 : (E.opts.maxInnerIters : ℝ) = (E.opts.maxInnerIters.toNat : ℝ) := by
      have := hr.maxInnerIters
      exact_mod_cast (Int.toNat_of_nonneg (by omega)).symm
    rw [h3] at h2
    have h4 : (o.newton : ℝ) < (s.newton + E.opts.maxInnerIters.toNat : ℕ) := by
      push_cast
      linarith
    exact_mod_cast h4
  have hreach : ∀ {k s'}, k ≤ K → Drifting E q (rayPoint E.opts.sigma0 zs sz ls sl vs sv) D r k0 K k s' →
      ‖s'.xk.vec - rayPoint E.opts.sigma0 zs sz ls sl vs sv k‖ ≤ q.reach E.opts D K := by
    intro k s' hkK hap
    refine hap.near.trans ?_
    unfold QP.reach
    have := mul_le_mul_of_nonneg_left (tolPart_le (K := K) hd0 hd1 hx0 hn0 hkK) hkap.le
    linarith
  have happ : ∀ {k s'}, k ≤ K → Steps E k (start E ws x
      (max (min (Resid.norm (E.penRes x)) E.opts.innerTolMax) E.opts.innerTolMin)) s' →
      Drifting E q (rayPoint E.opts.sigma0 zs sz ls sl vs sv) D r k0 K k s' ∧ (s'.newton : ℝ) ≤ k * npp := by
    intro k
    induction k with
    | zero =>
      intro s' _ hs
      cases hs
      refine ⟨⟨hx, ?_, ?_, .inl (Nat.zero_le _)⟩, by simp [start]⟩
      · simp only [start]
        rw [pow_zero, mul_one]
        refine max_le ((min_le_right _ _).trans (by linarith)) (by linarith)
      · have e : rayPoint E.opts.sigma0 zs sz ls sl vs sv 0 = vec3 zs ls vs := by
          simp [rayPoint]
        rw [e]
        refine hD'.trans ?_
        simp [tolPart]
    | succ k ih =>
      intro s' hkK hs
      cases hs with
      | tail h1 h2 =>
        rename_i s tol o
        obtain ⟨hap, hnew⟩ := ih (by omega) h1
        have hnear := hreach (by omega) hap
        refine ⟨hap.step N hmin hcf hsh hk (by omega) hmar he.small h2 ?_, ?_⟩
        · exact h2.toInner.accepted N.toRealEnv hap.marg hmin h2.below
            (hin (show k < K by omega) hap.marg hnear h2.toInner)
        · have h3 := (ctx (show k < K by omega) hnear).count hap.marg h2.toInner
          rw [h2.eq]
          show (o.newton : ℝ) ≤ _
          push_cast
          linarith
  have hnpp0 : ∀ {s : Outer ℝ nz nl nv}, SubCtx E q s.xk M rho → 0 ≤ npp := by
    intro s C
    have hg : 0 < q.newtonRate E.opts M rho := by
      have h1 := C.safe.1
      have h4 : 0 < E.opts.beta := lt_of_lt_of_le (by norm_num) hr.beta.1
      have h5 : 0 < E.opts.eta := lt_of_lt_of_le (by norm_num) hr.eta.1
      rw [QP.newtonRate]
      positivity
    rw [hnpp, QP.newtonPerProx]
    split
    · positivity
    · have := le_max_left 0 (Real.log (q.startResidual M rho ^ 2 / E.opts.innerTolMin ^ 2) /
        q.newtonRate E.opts M rho)
      linarith
  have hsub : ∀ {k s tol o}, k < K → Steps E k (start E ws x
      (max (min (Resid.norm (E.penRes x)) E.opts.innerTolMax) E.opts.innerTolMin)) s →
      Inner E s tol o → (o.newton : ℝ) ≤ K * npp := by
    intro k s tol o hkK hs hi
    obtain ⟨hap, hnew⟩ := happ hkK.le hs
    have C := ctx hkK (hreach hkK.le hap)
    have h7 := C.count hap.marg hi
    have h10 : ((k : ℝ) + 1) * npp ≤ K * npp := by
      refine mul_le_mul_of_nonneg_right ?_ (hnpp0 C)
      exact_mod_cast hkK
    linarith
  have hsucc : fin.out.proxIters < K → fin.out.eflag ≠ .maxIterations →
      (fin.out.newtonIters : ℝ) ≤ K * npp := by
    intro f1 f2
    obtain ⟨tol, k, s, ht, hs, h⟩ := h.run
    rw [saturate_real hmm] at ht
    injection ht with ht
    subst ht
    have hpk := hs.prox
    simp only [start, Nat.zero_add] at hpk
    rcases h with ⟨hk1, hx1⟩ | ⟨-, rfl⟩
    · cases hx1 with
      | success _ =>
        change s.prox < K at f1
        show (s.newton : ℝ) ≤ _
        obtain ⟨hap, hnew⟩ := happ (by omega) hs
        have C := ctx (show k < K by omega) (hreach (by omega) hap)
        have h10 : (k : ℝ) * npp ≤ K * npp := by
          refine mul_le_mul_of_nonneg_right ?_ (hnpp0 C)
          exact_mod_cast (show k ≤ K by omega)
        linarith
      | newton => exact absurd rfl f2
      | infeasible hi _ _ hf =>
        change s.prox < K at f1
        exact hsub (show k < K by omega) hs hi
    · exact absurd rfl f2
  rcases h.notices N hmin hmm hcf hx hsh hk hD' hmar he hp (fun {k s tol o} hkK hs hnear hi _ =>
      hin hkK (happ hkK.le hs).1.marg hnear hi) with
    ⟨h1, h2, h3⟩ | ⟨h1, h2⟩ | ⟨k, s, tol, o, hkK, h2, hnear, h3, h4, h5, h6⟩
  · exact ⟨h1, h3, hsucc h1 h3⟩
  · have h3 : fin.out.eflag ≠ .maxIterations := by rw [h2]; simp
    exact ⟨h1, h3, hsucc h1 h3⟩
  · exfalso
    have h7 := hsub hkK h2 h3
    have h9 : (E.opts.maxNewtonIters : ℝ) ≤ (o.newton : ℝ) := by exact_mod_cast h4
    have h11 : (K : ℝ) * npp < E.opts.maxNewtonIters := hn.newton
    linarith

end Core

theorem ExitFlag.cases {f : ExitFlag} (h1 : f ≠ .divergence) (h2 : f ≠ .maxIterations) :
    f = .success ∨ f.claimsPrimal ∨ f.claimsDual := by
  cases f <;> simp_all [ExitFlag.claimsPrimal, ExitFlag.claimsDual]

theorem innerTol_le {o : Params ℝ} (ho : o.InRange) (h : o.innerTolMin ≤ o.innerTolMax) (n : Nat) :
    max o.innerTolMin (o.innerTolMax * o.delta ^ n) ≤ o.innerTolMax := by
  have hd0 : 0 ≤ o.delta := le_trans (by norm_num) ho.delta.1
  have hd1 : o.delta ≤ 1 := le_trans ho.delta.2 (by norm_num)
  have hx0 : 0 ≤ o.innerTolMax := le_trans (by norm_num) ho.innerTolMax.1
  exact max_le h (mul_le_of_le_one_right hx0 (pow_le_one₀ hd0 hd1))

theorem tight_mono {o : Params ℝ} (ho : o.InRange) {t e v : ℝ} (h : t ≤ o.innerTolMax) (he : 0 ≤ e)
    (hv : 0 ≤ v) :
    (let c := 2 * t / o.alpha; (t + o.sigma0 * o.stallTol) * e + (c + o.sigma0 * (o.stallTol + c)) * v) ≤
    (let c := 2 * o.innerTolMax / o.alpha
     (o.innerTolMax + o.sigma0 * o.stallTol) * e + (c + o.sigma0 * (o.stallTol + c)) * v) := by
  have ha := ho.alpha_pos
  have hs := ho.sigma_pos
  have hc : 2 * t / o.alpha ≤ 2 * o.innerTolMax / o.alpha := by gcongr
  simp only
  generalize 2 * t / o.alpha = c at hc ⊢
  generalize 2 * o.innerTolMax / o.alpha = c' at hc ⊢
  have h1 : (t + o.sigma0 * o.stallTol) * e ≤ (o.innerTolMax + o.sigma0 * o.stallTol) * e :=
    mul_le_mul_of_nonneg_right (by linarith) he
  have h2 : (c + o.sigma0 * (o.stallTol + c)) * v ≤ (c' + o.sigma0 * (o.stallTol + c')) * v := by
    refine mul_le_mul_of_nonneg_right ?_ hv
    have := mul_le_mul_of_nonneg_left hc hs.le
    linarith
  linarith

theorem tight_nonneg {o : Params ℝ} (ho : o.InRange) {e v : ℝ} (he : 0 ≤ e) (hv : 0 ≤ v) :
    0 ≤ (let c := 2 * o.innerTolMax / o.alpha
     (o.innerTolMax + o.sigma0 * o.stallTol) * e + (c + o.sigma0 * (o.stallTol + c)) * v) := by
  have ha := ho.alpha_pos
  have hs := ho.sigma_pos
  have hx0 : 0 ≤ o.innerTolMax := le_trans (by norm_num) ho.innerTolMax.1
  have hst : 0 ≤ o.stallTol := le_trans (by norm_num) ho.stallTol
  simp only
  positivity

/-- C58: let a convex problem have no solution, let its limiting step pass a test for infeasibility with a
margin, and let `K` proximal iterations be enough to notice (`QP.Noticeable`).  If the limit on inner iterations
is not stricter than that on Newton iterations, then `Solve` returns an infeasibility flag or SUCCESS within `K`
proximal iterations, unless it uses up its Newton iterations. -/
theorem C58_noticed_dense (s : FBstabDense ℝ) (hs : s.Reachable) (p : DenseProblem ℝ) (x : CallerVar ℝ)
    (hf : DenseFits s.nz s.nl s.nv p x) (hy : x.YWritable s.nv) (hc : (s.qp p).Convex)
    (ht : TolerancesOrdered s.options (stoppingTol (s.problem p) s.options))
    (hl : s.options.maxNewtonIters ≤ s.options.maxInnerIters)
    (sz sl sv zs ls vs) (D r : ℝ) (k0 K : Nat)
    (hno : (s.qp p).Noticeable s.options (x.z.toVec s.nz).fn (x.l.toVec s.nl).fn
      (x.v.toVec s.nv).fn sz sl sv zs ls vs D r k0 K) :
    ∃ out, (s.solve p x).result = .ok out ∧
      ((out.proxIters < K ∧ (out.eflag = .success ∨ out.eflag.claimsPrimal ∨ out.eflag.claimsDual)) ∨
      (out.eflag = .maxIterations ∧ (out.newtonIters : Int) = s.options.maxNewtonIters)) := by
  obtain ⟨out, ho⟩ := C13_dense s hs p x hf hy hc ht
  have hdiv := (C05_dense s p x _ ho).1
  obtain ⟨-, -, fin, -, h2, rfl, e⟩ := FBstabDense.returned ho
  have N := s.newtonEnv (C01_reachable_dense s hs) p hc
  refine ⟨_, ho, ?_⟩
  rcases h2.noticed N ht.2 ht.1 hl (Core.Marg.start N.ops _ _ _) hno with ⟨h3, h4⟩ | h3
  · exact .inl ⟨h3, ExitFlag.cases hdiv h4⟩
  · exact .inr h3

/-- C58: if moreover the limits on line search, inner and Newton iterations are large enough
(`QP.NewtonEnough`), `Solve` returns an infeasibility flag or SUCCESS within `K` proximal iterations and the
stated number of Newton iterations. -/
theorem C58_dense (s : FBstabDense ℝ) (hs : s.Reachable) (p : DenseProblem ℝ) (x : CallerVar ℝ)
    (hf : DenseFits s.nz s.nl s.nv p x) (hy : x.YWritable s.nv) (hc : (s.qp p).Convex)
    (ht : TolerancesOrdered s.options (stoppingTol (s.problem p) s.options))
    (sz sl sv zs ls vs) (D r : ℝ) (k0 K : Nat)
    (hno : (s.qp p).Noticeable s.options (x.z.toVec s.nz).fn (x.l.toVec s.nl).fn
      (x.v.toVec s.nv).fn sz sl sv zs ls vs D r k0 K)
    (M : ℝ) (hM0 : 0 ≤ M) (hM : (s.qp p).DriftBound s.options K sz sv zs vs M)
    (hn : (s.qp p).NewtonEnough s.options M ((s.qp p).driftReach s.options D K sz sl sv) K) :
    ∃ out, (s.solve p x).result = .ok out ∧ out.proxIters < K ∧
      (out.newtonIters : ℝ) ≤ K * (s.qp p).newtonPerProx s.options M ((s.qp p).driftReach s.options D K sz sl sv) ∧
      (out.eflag = .success ∨ out.eflag.claimsPrimal ∨ out.eflag.claimsDual) := by
  obtain ⟨out, ho⟩ := C13_dense s hs p x hf hy hc ht
  have hdiv := (C05_dense s p x _ ho).1
  obtain ⟨-, -, fin, -, h2, rfl, e⟩ := FBstabDense.returned ho
  have N := s.newtonEnv (C01_reachable_dense s hs) p hc
  obtain ⟨h3, h4, h5⟩ := h2.detects N ht.2 ht.1 (Core.Marg.start N.ops _ _ _) hno hM0 hM hn
  exact ⟨_, ho, h3, h5, ExitFlag.cases hdiv h4⟩

/-- C58: and if the tolerances are too small for the problem to be taken for solved (C57), it returns an
infeasibility flag. -/
theorem C58_detected_dense (s : FBstabDense ℝ) (hs : s.Reachable) (p : DenseProblem ℝ) (x : CallerVar ℝ)
    (hf : DenseFits s.nz s.nl s.nv p x) (hy : x.YWritable s.nv) (hc : (s.qp p).Convex)
    (ht : TolerancesOrdered s.options (stoppingTol (s.problem p) s.options))
    (hl : s.options.maxNewtonIters ≤ s.options.maxInnerIters)
    (sz sl sv zs ls vs) (D r : ℝ) (k0 K : Nat)
    (hno : (s.qp p).Noticeable s.options (x.z.toVec s.nz).fn (x.l.toVec s.nl).fn
      (x.v.toVec s.nv).fn sz sl sv zs ls vs D r k0 K)
    (M : ℝ) (hM0 : 0 ≤ M) (hM : (s.qp p).DriftBound s.options K sz sv zs vs M)
    (hn : (s.qp p).NewtonEnough s.options M ((s.qp p).driftReach s.options D K sz sl sv) K)
    (hst : s.options.stallTol < onesNorm ℝ s.nz s.nl s.nv)
    (htight : (s.qp p).TightPrimal s.options (stoppingTol (s.problem p) s.options) sl sv ∨
      (s.qp p).TightDual s.options (stoppingTol (s.problem p) s.options) sz) :
    ∃ out, (s.solve p x).result = .ok out ∧ out.proxIters < K ∧
      (out.eflag.claimsPrimal ∨ out.eflag.claimsDual) := by
  obtain ⟨out, ho, h1, h2, h3⟩ := C58_dense s hs p x hf hy hc ht sz sl sv zs ls vs D r k0 K hno M hM0 hM hn
  refine ⟨out, ho, h1, h3.resolve_left ?_⟩
  have hin : (out.newtonIters : Int) < s.options.maxInnerIters := by
    have h4 := hn.newton
    have h5 : (out.newtonIters : ℝ) < s.options.maxNewtonIters := lt_of_le_of_lt h2 h4
    have h6 : (out.newtonIters : Int) < s.options.maxNewtonIters := by exact_mod_cast h5
    omega
  have o := C01_reachable_dense s hs
  have hle := innerTol_le o ht.1 out.proxIters
  rcases htight with ht' | ht'
  · have hs0 : 0 < -((s.qp p).h ⬝ᵥ sl + (s.qp p).b ⬝ᵥ sv) :=
      lt_of_le_of_lt (tight_nonneg o (euclid_nonneg _) (Finset.sum_nonneg fun i _ => hno.least.sign i)) ht'.stalling
    refine C57_not_solved_dense s hs p x out ho sl sv ⟨hno.least.cancel, hno.least.sign, by linarith⟩ ht'.stopping
      hst ?_ hin
    exact lt_of_le_of_lt (tight_mono o hle (euclid_nonneg _)
      (Finset.sum_nonneg fun i _ => hno.least.sign i)) ht'.stalling
  · have hsum : 0 ≤ ∑ i, -((s.qp p).A *ᵥ sz) i :=
      Finset.sum_nonneg fun i _ => neg_nonneg.2 (hno.least.ineq i)
    have hs0 : 0 < -((s.qp p).f ⬝ᵥ sz) :=
      lt_of_le_of_lt (tight_nonneg o (euclid_nonneg _) hsum) ht'.stalling
    refine C57_not_solved_unbounded_dense s hs p x out ho hc.symm sz
      ⟨hno.least.flat, hno.least.eq, hno.least.ineq, by linarith⟩ ht'.stopping hst ?_ hin
    exact lt_of_le_of_lt (tight_mono o hle (euclid_nonneg _) hsum) ht'.stalling

/-- C58 for `FBstabMpc`: noticed, or the Newton iterations are used up. -/
theorem C58_noticed_mpc (s : FBstabMpc ℝ) (hs : s.Reachable) (p : MpcProblem ℝ) (x : CallerVar ℝ)
    (hf : MpcFits s.N s.nx s.nu s.nc p x) (hcol : p.Columns) (hc : (s.ocp p).Convex)
    (ht : TolerancesOrdered s.options (stoppingTol (s.problem p) s.options))
    (hl : s.options.maxNewtonIters ≤ s.options.maxInnerIters)
    (sz sl sv zs ls vs) (D r : ℝ) (k0 K : Nat)
    (hno : (s.qp p).Noticeable s.options (x.z.toVec ((s.N + 1) * (s.nx + s.nu))).fn (x.l.toVec ((s.N + 1) * s.nx)).fn
      (x.v.toVec ((s.N + 1) * s.nc)).fn sz sl sv zs ls vs D r k0 K) :
    ∃ out, (s.solve p x).result = .ok out ∧
      ((out.proxIters < K ∧ (out.eflag = .success ∨ out.eflag.claimsPrimal ∨ out.eflag.claimsDual)) ∨
      (out.eflag = .maxIterations ∧ (out.newtonIters : Int) = s.options.maxNewtonIters)) := by
  obtain ⟨out, ho⟩ := C13_mpc s hs p x hf hcol hc ht
  have hdiv := (C05_mpc real_zero_beq s p x _ ho).1
  obtain ⟨-, -, fin, -, h2, rfl, e⟩ := FBstabMpc.returned real_zero_beq ho
  have N := s.newtonEnv (C01_reachable_mpc s hs) p hc
  refine ⟨_, ho, ?_⟩
  rcases h2.noticed N ht.2 ht.1 hl (Core.Marg.start N.ops _ _ _) hno with ⟨h3, h4⟩ | h3
  · exact .inl ⟨h3, ExitFlag.cases hdiv h4⟩
  · exact .inr h3

/-- C58 for `FBstabMpc`: noticed. -/
theorem C58_mpc (s : FBstabMpc ℝ) (hs : s.Reachable) (p : MpcProblem ℝ) (x : CallerVar ℝ)
    (hf : MpcFits s.N s.nx s.nu s.nc p x) (hcol : p.Columns) (hc : (s.ocp p).Convex)
    (ht : TolerancesOrdered s.options (stoppingTol (s.problem p) s.options))
    (sz sl sv zs ls vs) (D r : ℝ) (k0 K : Nat)
    (hno : (s.qp p).Noticeable s.options (x.z.toVec ((s.N + 1) * (s.nx + s.nu))).fn (x.l.toVec ((s.N + 1) * s.nx)).fn
      (x.v.toVec ((s.N + 1) * s.nc)).fn sz sl sv zs ls vs D r k0 K)
    (M : ℝ) (hM0 : 0 ≤ M) (hM : (s.qp p).DriftBound s.options K sz sv zs vs M)
    (hn : (s.qp p).NewtonEnough s.options M ((s.qp p).driftReach s.options D K sz sl sv) K) :
    ∃ out, (s.solve p x).result = .ok out ∧ out.proxIters < K ∧
      (out.newtonIters : ℝ) ≤ K * (s.qp p).newtonPerProx s.options M ((s.qp p).driftReach s.options D K sz sl sv) ∧
      (out.eflag = .success ∨ out.eflag.claimsPrimal ∨ out.eflag.claimsDual) := by
  obtain ⟨out, ho⟩ := C13_mpc s hs p x hf hcol hc ht
  have hdiv := (C05_mpc real_zero_beq s p x _ ho).1
  obtain ⟨-, -, fin, -, h2, rfl, e⟩ := FBstabMpc.returned real_zero_beq ho
  have N := s.newtonEnv (C01_reachable_mpc s hs) p hc
  obtain ⟨h3, h4, h5⟩ := h2.detects N ht.2 ht.1 (Core.Marg.start N.ops _ _ _) hno hM0 hM hn
  exact ⟨_, ho, h3, h5, ExitFlag.cases hdiv h4⟩

/-- C58 for `FBstabMpc`: infeasibility is reported. -/
theorem C58_detected_mpc (s : FBstabMpc ℝ) (hs : s.Reachable) (p : MpcProblem ℝ) (x : CallerVar ℝ)
    (hf : MpcFits s.N s.nx s.nu s.nc p x) (hcol : p.Columns) (hc : (s.ocp p).Convex)
    (ht : TolerancesOrdered s.options (stoppingTol (s.problem p) s.options))
    (hl : s.options.maxNewtonIters ≤ s.options.maxInnerIters)
    (sz sl sv zs ls vs) (D r : ℝ) (k0 K : Nat)
    (hno : (s.qp p).Noticeable s.options (x.z.toVec ((s.N + 1) * (s.nx + s.nu))).fn (x.l.toVec ((s.N + 1) * s.nx)).fn
      (x.v.toVec ((s.N + 1) * s.nc)).fn sz sl sv zs ls vs D r k0 K)
    (M : ℝ) (hM0 : 0 ≤ M) (hM : (s.qp p).DriftBound s.options K sz sv zs vs M)
    (hn : (s.qp p).NewtonEnough s.options M ((s.qp p).driftReach s.options D K sz sl sv) K)
    (hst : s.options.stallTol < onesNorm ℝ ((s.N + 1) * (s.nx + s.nu)) ((s.N + 1) * s.nx) ((s.N + 1) * s.nc))
    (htight : (s.qp p).TightPrimal s.options (stoppingTol (s.problem p) s.options) sl sv ∨
      (s.qp p).TightDual s.options (stoppingTol (s.problem p) s.options) sz) :
    ∃ out, (s.solve p x).result = .ok out ∧ out.proxIters < K ∧
      (out.eflag.claimsPrimal ∨ out.eflag.claimsDual) := by
  obtain ⟨out, ho, h1, h2, h3⟩ := C58_mpc s hs p x hf hcol hc ht sz sl sv zs ls vs D r k0 K hno M hM0 hM hn
  refine ⟨out, ho, h1, h3.resolve_left ?_⟩
  have hin : (out.newtonIters : Int) < s.options.maxInnerIters := by
    have h4 := hn.newton
    have h5 : (out.newtonIters : ℝ) < s.options.maxNewtonIters := lt_of_le_of_lt h2 h4
    have h6 : (out.newtonIters : Int) < s.options.maxNewtonIters := by exact_mod_cast h5
    omega
  have o := C01_reachable_mpc s hs
  have hle := innerTol_le o ht.1 out.proxIters
  rcases htight with ht' | ht'
  · have hs0 : 0 < -((s.qp p).h ⬝ᵥ sl + (s.qp p).b ⬝ᵥ sv) :=
      lt_of_le_of_lt (tight_nonneg o (euclid_nonneg _) (Finset.sum_nonneg fun i _ => hno.least.sign i)) ht'.stalling
    refine C57_not_solved_mpc s hs p x out ho sl sv ⟨hno.least.cancel, hno.least.sign, by linarith⟩ ht'.stopping
      hst ?_ hin
    exact lt_of_le_of_lt (tight_mono o hle (euclid_nonneg _)
      (Finset.sum_nonneg fun i _ => hno.least.sign i)) ht'.stalling
  · have hsum : 0 ≤ ∑ i, -((s.qp p).A *ᵥ sz) i :=
      Finset.sum_nonneg fun i _ => neg_nonneg.2 (hno.least.ineq i)
    have hs0 : 0 < -((s.qp p).f ⬝ᵥ sz) :=
      lt_of_le_of_lt (tight_nonneg o (euclid_nonneg _) hsum) ht'.stalling
    refine C57_not_solved_unbounded_mpc s hs p x out ho (s.newtonEnv o p hc).convex.symm sz
      ⟨hno.least.flat, hno.least.eq, hno.least.ineq, by linarith⟩ ht'.stopping hst ?_ hin
    exact lt_of_le_of_lt (tight_mono o hle (euclid_nonneg _) hsum) ht'.stalling

/-! ### A case -/

/-- Minimise `z^2 / 2` subject to `0.06 z <= -0.008` and `-0.08 z <= -0.006`. -/
noncomputable def clashQP : QP 1 0 2 where
  H := fun _ _ => 1
  f := fun _ => 0
  G := fun i _ => i.elim0
  h := fun i => i.elim0
  A := fun i _ => if i = 0 then 0.06 else -0.08
  b := fun i => if i = 0 then -0.008 else -0.006

/-- Options for which `Noticeable` and `NewtonEnough` are easily checked; the limits are below `2^31`. -/
noncomputable def clashOptions : Params ℝ :=
  { Params.defaults with
    checkFeasibility := true, nonmonotoneLinesearch := false, sigma0 := 1, sigmaMax := 1, alpha := 0.999,
    beta := 0.99, eta := 0.49, delta := 0.0001, innerTolMax := 1e-5, innerTolMin := 1e-5, absTol := 1e-4,
    relTol := 0, infeasTol := 1e-2, maxProxIters := 1, maxNewtonIters := 100000000,
    maxInnerIters := 100000000, maxLinesearchIters := 2000 }

theorem clashOptions_inRange : clashOptions.InRange := by
  constructor <;> simp only [clashOptions, Params.defaults, Between] <;> norm_num

theorem clashQP_convex : clashQP.Convex where
  symm := by ext i j; rfl
  nonneg := fun z => by
    rw [show clashQP.H *ᵥ z = z from ones_mul z]; exact dot_self_nonneg z

/-- Its least shift. -/
noncomputable def clashShift : Fin 2 → ℝ := fun i => if i = 0 then 0.008 else 0.006

theorem clashQP_least : clashQP.LeastShift 0 0 clashShift where
  flat := mulVec_zero _
  eq := mulVec_zero _
  ineq := fun i => by rw [mulVec_zero]; exact le_rfl
  slope := by simp
  cancel := by
    ext i
    simp [clashQP, mulVec, dotProduct, Fin.sum_univ_succ, clashShift]
    show (if (0 : Fin 2) = 0 then (6e-2 : ℝ) else -8e-2) * 8e-3 +
      (if (1 : Fin 2) = 0 then (6e-2 : ℝ) else -8e-2) * 6e-3 = 0
    norm_num
  sign := fun i => by
    unfold clashShift; split <;> norm_num
  violation := by
    simp [clashQP, dotProduct, Fin.sum_univ_succ, clashShift]
    norm_num

theorem clashQP_solved : (clashQP.shifted 0 0 clashShift).KKT 0 0 0 where
  stationary := by
    unfold QP.lagrangeGrad
    simp only [mulVec_zero]
    ext i
    simp [clashQP, QP.shifted]
  feasible := ⟨by ext i; exact i.elim0, fun i => by
    rw [mulVec_zero]
    show (0 : ℝ) ≤ clashQP.b i + clashShift i
    unfold clashQP clashShift
    dsimp only
    split <;> norm_num⟩
  dual := fun i => le_rfl
  complementary := fun i => .inl rfl

theorem clashQP_sizes : clashQP.sizeA = 0.1 ∧ clashQP.sizeH = 1 ∧ clashQP.sizeG = 0 := by
  refine ⟨?_, ?_, ?_⟩
  · rw [QP.sizeA]
    have : (∑ i, ∑ j, clashQP.A i j ^ 2) = 0.1 ^ 2 := by
      simp [clashQP, Fin.sum_univ_succ]
      norm_num
    rw [this, Real.sqrt_sq (by norm_num)]
  · rw [QP.sizeH]
    simp [clashQP]
  · simp [QP.sizeG]

theorem clashShift_dot : clashShift ⬝ᵥ clashShift = 0.01 ^ 2 := by
  simp [dotProduct, Fin.sum_univ_succ, clashShift]
  norm_num

theorem clashQP_errFactor : clashQP.errFactor clashOptions.alpha clashOptions.sigma0 = 7199 / 999 := by
  rw [QP.errFactor, clashQP_sizes.1, clashOptions]; norm_num

theorem clashQP_reach : clashQP.reach clashOptions 0 1 ≤ 7.21e-5 ∧ 0 ≤ clashQP.reach clashOptions 0 1 := by
  rw [QP.reach, clashQP_errFactor, QP.tolSum, clashOptions]; norm_num

theorem clashQP_noticeable :
    clashQP.Noticeable clashOptions 0 0 0 0 0 clashShift 0 0 0 0 3e-4 0 1 where
  checked := rfl
  least := clashQP_least
  solved := clashQP_solved
  nonneg := le_rfl
  near := by simp [QP.dist2]
  margin := by
    left
    have hs : clashOptions.sigma0⁻¹ = 1 := by simp [clashOptions]
    have hb : euclid clashQP.b = 0.01 := by
      have : clashQP.b ⬝ᵥ clashQP.b = 0.01 ^ 2 := by
        simp [dotProduct, Fin.sum_univ_succ, clashQP]
        norm_num
      rw [euclid, this, Real.sqrt_sq (by norm_num)]
    have hh : euclid clashQP.h = 0 := euclid_eq_zero.2 (Subsingleton.elim _ _)
    have hn : (0.008 : ℝ) ≤ ‖clashShift‖ := by
      have := norm_le_pi_norm clashShift 0
      refine le_trans (le_of_eq ?_) this
      norm_num [clashShift]
    rw [hs, one_smul, one_smul]
    refine ⟨?_, ?_⟩
    · rw [clashQP_sizes.1, clashQP_sizes.2.2, show clashOptions.infeasTol = 1e-2 from rfl]
      have := hn.trans (le_max_left ‖clashShift‖ ‖(0 : Fin 0 → ℝ)‖)
      norm_num at this ⊢
      linarith
    · rw [hb, hh, clashShift_dot, show clashOptions.sigma0 = 1 from rfl, zero_dotProduct]
      norm_num
  within := by
    obtain ⟨e2, e3⟩ := clashQP_reach
    refine ⟨?_, ?_⟩
    · rw [clashQP_errFactor]
      simp only [clashOptions]
      norm_num
    · have h2 := pow_le_pow_left₀ e3 e2 2
      norm_num at h2 ⊢
      nlinarith
  limit := by show ((1 : ℕ) : ℤ) ≤ 1; norm_num

theorem clashQP_bound : clashQP.DriftBound clashOptions 1 0 clashShift 0 0 0.01 := by
  intro i
  rw [smul_zero, add_zero, mulVec_zero]
  have hs : clashOptions.sigma0⁻¹ = 1 := by simp [clashOptions]
  rw [hs]
  unfold clashQP clashShift
  dsimp only [Pi.zero_apply]
  split <;> norm_num

theorem clashQP_newtonEnough :
    clashQP.NewtonEnough clashOptions 0.01 (clashQP.driftReach clashOptions 0 1 0 0 clashShift) 1 := by
  obtain ⟨sA, sH, sG⟩ := clashQP_sizes
  have hs1 : clashOptions.sigma0 = 1 := rfl
  have hrho : clashQP.driftReach clashOptions 0 1 0 0 clashShift ≤ 2.01e-2 ∧
      0 ≤ clashQP.driftReach clashOptions 0 1 0 0 clashShift := by
    obtain ⟨e2, e3⟩ := clashQP_reach
    rw [QP.driftReach, clashShift_dot, hs1, zero_dotProduct, zero_dotProduct, zero_add, zero_add,
      Real.sqrt_sq (by norm_num)]
    norm_num at e2 ⊢
    constructor <;> linarith
  obtain ⟨e2, e3⟩ := hrho
  generalize clashQP.driftReach clashOptions 0 1 0 0 clashShift = rho at e2 e3
  have c1 : clashQP.pairSpeed clashOptions = 2.1 * (7199 / 999) := by
    rw [QP.pairSpeed, clashQP_errFactor, sA, hs1]; norm_num
  have hF : clashQP.startResidual 0.01 rho ≤ 0.113 := by
    rw [QP.startResidual, sA, sH, sG]
    norm_num at e2 ⊢
    nlinarith
  have hF0 : 0 ≤ clashQP.startResidual 0.01 rho := QP.startResidual_nonneg _ (by norm_num) e3
  have hB : clashQP.pairBound clashOptions 0.01 rho ≤ 4.4 := by
    rw [QP.pairBound, clashQP_errFactor, c1, sA, hs1]
    norm_num at e2 hF ⊢
    linarith
  have hB0 : 0 ≤ clashQP.pairBound clashOptions 0.01 rho :=
    QP.pairBound_nonneg _ clashOptions_inRange.alpha_pos clashOptions_inRange.sigma_pos (by norm_num) e3
  have hs : 1.7e-6 ≤ clashQP.safeStep clashOptions 0.01 rho := by
    rw [QP.safeStep, c1, show clashOptions.eta = 0.49 from rfl, le_div_iff₀ (by positivity)]
    have : (1 + clashQP.pairBound clashOptions 0.01 rho) ^ 2 ≤ 5.4 ^ 2 :=
      pow_le_pow_left₀ (by linarith) (by norm_num at hB ⊢; linarith) 2
    norm_num at this ⊢
    linarith
  have hN : clashQP.newtonPerProx clashOptions 0.01 rho < 100000000 := by
    have hr : 1.6e-6 ≤ clashQP.newtonRate clashOptions 0.01 rho := by
      rw [QP.newtonRate, show clashOptions.eta = 0.49 from rfl, show clashOptions.beta = 0.99 from rfl]
      norm_num at hs ⊢
      linarith
    have hr0 : 0 < clashQP.newtonRate clashOptions 0.01 rho := lt_of_lt_of_le (by norm_num) hr
    have hl : Real.log (clashQP.startResidual 0.01 rho ^ 2 / clashOptions.innerTolMin ^ 2) ≤ 20 := by
      rcases eq_or_lt_of_le hF0 with h | h
      · rw [← h]; norm_num
      · rw [show clashOptions.innerTolMin = 1e-5 from rfl, Real.log_le_iff_le_exp (by positivity)]
        have h1 : (2.7 : ℝ) ^ 20 ≤ Real.exp 20 := by
          have := pow_le_pow_left₀ (by norm_num) (le_trans (by norm_num) Real.exp_one_gt_d9.le :
            (2.7 : ℝ) ≤ Real.exp 1) 20
          rwa [← Real.exp_nat_mul, mul_one] at this
        have h2 := pow_le_pow_left₀ hF0 hF 2
        refine le_trans ?_ h1
        rw [div_le_iff₀ (by norm_num)]
        norm_num at h2 ⊢
        linarith
    have hq : Real.log (clashQP.startResidual 0.01 rho ^ 2 / clashOptions.innerTolMin ^ 2) /
        clashQP.newtonRate clashOptions 0.01 rho ≤ 20000000 := by
      rw [div_le_iff₀ hr0]
      norm_num at hr ⊢
      linarith
    rw [QP.newtonPerProx]
    rw [if_neg (by simp [clashOptions])]
    have := max_le (show (0 : ℝ) ≤ 20000000 by norm_num) hq
    linarith
  refine ⟨?_, ?_, ?_, ?_⟩
  · rw [c1, show clashOptions.eta = 0.49 from rfl, show clashOptions.innerTolMin = 1e-5 from rfl]
    norm_num at hB ⊢
    linarith
  · rw [show clashOptions.beta = 0.99 from rfl, show clashOptions.maxLinesearchIters.toNat - 1 = 1999 from rfl]
    refine le_trans ?_ hs
    have h1 : (0.99 : ℝ) ^ 100 ≤ 0.37 := by norm_num
    calc (0.99 : ℝ) ^ 1999 ≤ 0.99 ^ 1900 := pow_le_pow_of_le_one (by norm_num) (by norm_num) (by norm_num)
      _ = (0.99 ^ 100) ^ 19 := by rw [← pow_mul]
      _ ≤ 0.37 ^ 19 := pow_le_pow_left₀ (by positivity) h1 19
      _ ≤ _ := by norm_num
  · rw [show clashOptions.maxInnerIters = 100000000 from rfl]
    push_cast
    exact hN
  · rw [show clashOptions.maxNewtonIters = 100000000 from rfl]
    push_cast
    linarith

theorem no_descent (z : Fin 1 → ℝ) : ¬clashQP.f ⬝ᵥ z < 0 := by
  rw [show clashQP.f = 0 from rfl, zero_dotProduct]
  exact lt_irrefl _

/-- The hypotheses of C58 are met, with limits that fit into an `int`: the problem is reported as primal
infeasible. -/
theorem C58_example (junk : DenseJunk ℝ) :
    let s := FBstabDense.made junk 1 0 2 clashOptions
    let x : CallerVar ℝ := guessOf (nz := 1) (nl := 0) (nv := 2) 0 0 0
    ∃ out, (s.solve clashQP.toDense x).result = .ok out ∧ out.eflag = .primalInfeasible := by
  intro s x
  have hq : s.qp clashQP.toDense = clashQP := FBstabDense.made_qp junk _ _
  have hr : s.Reachable := FBstabDense.made_reachable junk _ (by norm_num) (by norm_num)
    (by norm_num [intLimit]) clashOptions_inRange
  obtain ⟨g1, g2, g3⟩ := guessOf_point (nz := 1) (nl := 0) (nv := 2) 0 0 0
  have g1' : (x.z.toVec s.nz).fn = 0 := g1
  have g2' : (x.l.toVec s.nl).fn = 0 := g2
  have g3' : (x.v.toVec s.nv).fn = 0 := g3
  have et : stoppingTol (s.problem clashQP.toDense) s.options = 1e-4 := by
    have e1 : s.options.relTol = 0 := rfl
    have e2 : s.options.absTol = 1e-4 := rfl
    rw [stoppingTol, e1, e2, zero_mul, add_zero]
  have hsum : ∑ i, clashShift i = 0.014 := by
    simp [Fin.sum_univ_succ, clashShift]
    norm_num
  have hval : -(clashQP.h ⬝ᵥ (0 : Fin 0 → ℝ) + clashQP.b ⬝ᵥ clashShift) = 1e-4 := by
    have := clashQP_least.violation
    rw [this, clashShift_dot, zero_dotProduct]
    norm_num
  have he0 : euclid (0 : Fin 0 → ℝ) = 0 := euclid_eq_zero.2 rfl
  have htight : clashQP.TightPrimal clashOptions 1e-4 0 clashShift := by
    refine ⟨?_, ?_⟩
    · rw [hval, hsum, he0, show clashOptions.alpha = 0.999 from rfl]
      norm_num
    · rw [hval, hsum, he0]
      show (1e-5 + 1 * 1e-10) * 0 + (2 * 1e-5 / 0.999 + 1 * (1e-10 + 2 * 1e-5 / 0.999)) * 0.014 < (1e-4 : ℝ)
      norm_num
  obtain ⟨out, h1, -, h3⟩ := C58_detected_dense s hr clashQP.toDense x (clashQP.toDense_fits _ _ _)
    (guessOf_writable _ _ _ _) (hq ▸ clashQP_convex)
    ⟨by show (1e-5 : ℝ) ≤ 1e-5; norm_num, by rw [et]; show (1e-5 : ℝ) ≤ 1e-4; norm_num⟩
    (by show (100000000 : Int) ≤ 100000000; norm_num) (0 : Fin 1 → ℝ) (0 : Fin 0 → ℝ) clashShift
    (0 : Fin 1 → ℝ) (0 : Fin 0 → ℝ) (0 : Fin 2 → ℝ) 0 3e-4 0 1
    (by rw [g1', g2', g3', hq]; exact clashQP_noticeable) 0.01 (by norm_num)
    (by rw [hq]; exact clashQP_bound) (by rw [hq]; exact clashQP_newtonEnough)
    (by
      have := one_le_onesNorm (nz := s.nz) (nl := s.nl) (nv := s.nv) (by show 0 < 1; norm_num)
      refine lt_of_lt_of_le ?_ this
      show (1e-10 : ℝ) < 1
      norm_num)
    (.inl (by rw [et, hq]; exact htight))
  refine ⟨out, h1, ?_⟩
  have hd : ¬out.eflag.claimsDual := by
    intro hd
    have := (C21_dense s hr _ x out h1 h3).2.1 hd
    rw [hq] at this
    have h := this.descent
    exact absurd h (no_descent _)
  rcases h3 with h3 | h3
  · rcases h3 with h3 | h3
    · exact h3
    · exact absurd (.inr h3) hd
  · exact absurd h3 hd

end Fbstab
