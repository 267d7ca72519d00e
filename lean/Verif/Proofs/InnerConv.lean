import Verif.Proofs.NewtonMath
import Verif.Proofs.Outer

/-!
# The loop of a proximal subproblem ends
-/

namespace Fbstab
open Matrix

namespace Core
variable {nz nl nv : Nat} {E : Env ℝ nz nl nv} {q : QP nz nl nv}

/-- The residual of the subproblem of the model. -/
theorem innerRes_norm (I : q.Implements E.ops) {x xbar : Point ℝ nz nl nv} (hm : Marg q x) (sigma : ℝ) :
    Resid.norm (E.innerRes x xbar sigma) =
      ‖q.subRes E.opts.alpha sigma xbar.z.fn xbar.l.fn xbar.v.fn x.z.fn x.l.fn x.v.fn‖ := by
  obtain ⟨i1, i2, i3⟩ := innerRes_fn (E := E) I x xbar sigma
  have e : Resid.norm (E.innerRes x xbar sigma) = norm3 (E.innerRes x xbar sigma).z
    (E.innerRes x xbar sigma).l (E.innerRes x xbar sigma).v := rfl
  have i3' : (E.innerRes x xbar sigma).v.fn =
      fun i => pfb (q.pairA sigma xbar.v.fn x.z.fn x.v.fn i) (x.v.fn i) E.opts.alpha := by
    funext i
    have h : (E.innerRes x xbar sigma).v.fn i = _ := i3 i
    have hy : x.y i = q.b i - (q.A *ᵥ x.z.fn) i := congrFun hm i
    rw [h, hy]
    rfl
  rw [e, norm3_vec3, i1, i2, i3', QP.subRes]

theorem maxMerit_real (buf : Vec ℝ 5) : Alg.maxMerit buf =
    max (max (max (max (buf 0) (buf 1)) (buf 2)) (buf 3)) (buf 4) := by
  unfold Alg.maxMerit Vec.maxCoeff
  simp only [Fin.foldl_succ, Fin.foldl_zero]
  simp only [cmax_eq_max]
  rfl

theorem entry_le_maxMerit (buf : Vec ℝ 5) (k : Fin 5) : buf k ≤ Alg.maxMerit buf := by
  rw [maxMerit_real]
  match k with
  | 0 => simp
  | 1 => simp
  | 2 => simp
  | 3 => simp
  | 4 => simp

theorem maxMerit_le {buf : Vec ℝ 5} {b : ℝ} (h : ∀ k, buf k ≤ b) : Alg.maxMerit buf ≤ b := by
  rw [maxMerit_real]
  exact max_le (max_le (max_le (max_le (h 0) (h 1)) (h 2)) (h 3)) (h 4)

theorem insertMerit_get (m : ℝ) (buf : Vec ℝ 5) :
    Alg.insertMerit m buf 0 = m ∧ ∀ k : Fin 4, Alg.insertMerit m buf k.succ = buf k.castSucc := by
  have h : Holds buf [buf 0, buf 1, buf 2, buf 3, buf 4] := by rw [Holds.iff]; simp
  have h' := (Holds.iff _ _).1 (h.insert m)
  obtain ⟨a0, a1, a2, a3, a4⟩ := h'
  refine ⟨a0, fun k => ?_⟩
  match k with
  | 0 => exact a1
  | 1 => exact a2
  | 2 => exact a3
  | 3 => exact a4

/-- What is assumed about a subproblem: a bound for the residual at the start, and that steps of length
`safeStep` in Newton directions decrease the residual. -/
structure SubCtx (E : Env ℝ nz nl nv) (q : QP nz nl nv) (xbar : Point ℝ nz nl nv) (M rho : ℝ) : Prop
    extends NewtonEnv E q where
  M0 : 0 ≤ M
  rho0 : 0 ≤ rho
  start : ‖q.subRes E.opts.alpha E.opts.sigma0 xbar.z.fn xbar.l.fn xbar.v.fn xbar.z.fn xbar.l.fn xbar.v.fn‖ ≤
    q.startResidual M rho
  decrease : ∀ {z l v dz dl dv},
    q.NewtonDir E.opts.alpha E.opts.sigma0 xbar.z.fn xbar.l.fn xbar.v.fn z l v dz dl dv →
    ‖q.subRes E.opts.alpha E.opts.sigma0 xbar.z.fn xbar.l.fn xbar.v.fn z l v‖ ≤ q.startResidual M rho →
    E.opts.innerTolMin ≤ ‖q.subRes E.opts.alpha E.opts.sigma0 xbar.z.fn xbar.l.fn xbar.v.fn z l v‖ →
    ∀ {t : ℝ}, 0 ≤ t → t ≤ 1 → t ≤ q.safeStep E.opts M rho →
    ‖q.subRes E.opts.alpha E.opts.sigma0 xbar.z.fn xbar.l.fn xbar.v.fn (z + t • dz) (l + t • dl) (v + t • dv)‖ ^ 2 ≤
      (1 - 2 * t * E.opts.eta) *
        ‖q.subRes E.opts.alpha E.opts.sigma0 xbar.z.fn xbar.l.fn xbar.v.fn z l v‖ ^ 2
  linesearch : E.opts.beta ^ (E.opts.maxLinesearchIters.toNat - 1) ≤ q.safeStep E.opts M rho

/-- Subproblems of a problem with a solution. -/
theorem SubCtx.ofKKT (N : NewtonEnv E q) {xbar : Point ℝ nz nl nv} {zs ls vs} {M rho : ℝ}
    (hk : q.KKT zs ls vs) (hM0 : 0 ≤ M) (hM : ∀ i, q.b i - (q.A *ᵥ zs) i ≤ M ∧ vs i ≤ M)
    (hnear : ‖xbar.vec - vec3 zs ls vs‖ ≤ rho)
    (hband : 36 * 1e-13 * nv * (1 + q.pairBound E.opts M rho) * q.pairSpeed E.opts ≤
      (1 - E.opts.eta) * E.opts.innerTolMin)
    (hl : E.opts.beta ^ (E.opts.maxLinesearchIters.toNat - 1) ≤ q.safeStep E.opts M rho) :
    SubCtx E q xbar M rho := by
  have hr := N.inRange
  have he1 : E.opts.eta < 1 := lt_of_le_of_lt hr.eta.2 (by norm_num)
  have hnear' := hnear
  rw [Point.vec] at hnear'
  exact
    { toNewtonEnv := N, M0 := hM0, rho0 := (norm_nonneg _).trans hnear,
      start := QP.subRes_start hr.alpha_pos hr.alpha_lt hk hM0 hM hnear',
      decrease := fun hdir hF heps _ ht ht1 hts =>
        hdir.decrease N.convex hr.alpha_pos hr.alpha_lt hr.sigma_pos hk hM0 hM hnear' hF heps he1 hband ht ht1 hts,
      linesearch := hl }

/-- The decrease every Newton step achieves. -/
noncomputable def gain (q : QP nz nl nv) (o : Params ℝ) (M rho : ℝ) : ℝ :=
  o.beta * q.safeStep o M rho * o.eta * o.innerTolMin ^ 2

theorem SubCtx.safe {xbar M rho} (S : SubCtx E q xbar M rho) :
    0 < q.safeStep E.opts M rho ∧ q.safeStep E.opts M rho ≤ 1 := by
  have hr := S.inRange
  have he : E.opts.eta ≤ 0.499 := hr.eta.2
  have he0 : 1e-12 ≤ E.opts.eta := hr.eta.1
  have hden : 1 ≤ 1 + 22 * (nv : ℝ) * (1 + q.pairBound E.opts M rho) ^ 2 * q.pairSpeed E.opts ^ 2 := by
    have : 0 ≤ 22 * (nv : ℝ) * (1 + q.pairBound E.opts M rho) ^ 2 * q.pairSpeed E.opts ^ 2 := by positivity
    linarith
  unfold QP.safeStep
  constructor
  · refine div_pos ?_ (by linarith)
    norm_num at he ⊢
    linarith
  · rw [div_le_one (by linarith)]
    norm_num at he0
    linarith

theorem SubCtx.gain_pos {xbar M rho} (S : SubCtx E q xbar M rho) :
    0 < gain q E.opts M rho := by
  have hr := S.inRange
  have h1 := S.safe.1
  have h2 : 0 < E.opts.beta := lt_of_lt_of_le (by norm_num) hr.beta.1
  have h3 : 0 < E.opts.eta := lt_of_lt_of_le (by norm_num) hr.eta.1
  have h4 : 0 < E.opts.innerTolMin := lt_of_lt_of_le (by norm_num) hr.innerTolMin.1
  unfold gain
  positivity

/-- One Newton step decreases the merit below the reference value. -/
theorem SubCtx.newtonStep {xbar M rho} (S : SubCtx E q xbar M rho)
    {x : Point ℝ nz nl nv} (hm : Marg q x)
    (hF : Resid.norm (E.innerRes x xbar E.opts.sigma0) ≤ q.startResidual M rho)
    (heps : E.opts.innerTolMin < Resid.norm (E.innerRes x xbar E.opts.sigma0)) {g}
    (hg : E.factor x xbar E.opts.sigma0 = .ok (some g)) (buf : Vec ℝ 5) :
    Marg q (Core.newtonStep E E.opts.sigma0 xbar g x (E.innerRes x xbar E.opts.sigma0) buf).1 ∧
    Resid.merit (E.innerRes (Core.newtonStep E E.opts.sigma0 xbar g x
        (E.innerRes x xbar E.opts.sigma0) buf).1 xbar E.opts.sigma0) ≤
      mZero E (Alg.insertMerit (Resid.merit (E.innerRes x xbar E.opts.sigma0)) buf)
        (Resid.merit (E.innerRes x xbar E.opts.sigma0)) -
        q.newtonRate E.opts M rho * Resid.merit (E.innerRes x xbar E.opts.sigma0) := by
  have hr := S.inRange
  have ha := hr.alpha_pos
  have ha' := hr.alpha_lt
  have hs := hr.sigma_pos
  have hb0 : 0 < E.opts.beta := lt_of_lt_of_le (by norm_num) hr.beta.1
  have hb1 : E.opts.beta ≤ 1 := le_trans hr.beta.2 (by norm_num)
  have he0 : 0 < E.opts.eta := lt_of_lt_of_le (by norm_num) hr.eta.1
  have he1 : E.opts.eta < 1 := lt_of_le_of_lt hr.eta.2 (by norm_num)
  have hi0 : 0 < E.opts.innerTolMin := lt_of_lt_of_le (by norm_num) hr.innerTolMin.1
  obtain ⟨hsafe0, hsafe1⟩ := S.safe
  obtain ⟨g', hg', hn⟩ := S.factor x xbar
  have : g = g' := by rw [hg] at hg'; injection hg' with h; injection h
  subst this
  set ri := E.innerRes x xbar E.opts.sigma0 with hri
  set d := g (Resid.negate ri) with hd
  set cm := Resid.merit ri with hcm
  set m0 := mZero E (Alg.insertMerit cm buf) cm with hm0
  obtain ⟨i1, i2, i3⟩ := innerRes_fn (E := E) S.ops x xbar E.opts.sigma0
  have hz : ∀ {n : Nat} (w : Vec ℝ n), (Vec.ofFn fun i => w i * (-1)).fn = -w.fn := by
    intro n w; ext i; simp
  have hyi : ∀ i, x.y i = q.b i - (q.A *ᵥ x.z.fn) i := fun i => congrFun hm i
  have hdir : q.NewtonDir E.opts.alpha E.opts.sigma0 xbar.z.fn xbar.l.fn xbar.v.fn x.z.fn x.l.fn x.v.fn
      d.z.fn d.l.fn d.v.fn := by
    have h1 := hn (Resid.negate ri)
    have e1 : (Resid.negate ri).z.fn =
      -(q.lagrangeGrad x.z.fn x.l.fn x.v.fn + E.opts.sigma0 • (x.z.fn - xbar.z.fn)) := by
      rw [← i1]; exact hz _
    have e2 : (Resid.negate ri).l.fn =
      -(q.h - q.G *ᵥ x.z.fn + E.opts.sigma0 • (x.l.fn - xbar.l.fn)) := by
      rw [← i2]; exact hz _
    have e3 : (Resid.negate ri).v.fn = fun i =>
        -pfb (q.pairA E.opts.sigma0 xbar.v.fn x.z.fn x.v.fn i) (x.v.fn i) E.opts.alpha := by
      funext i
      have h2 := i3 i
      rw [hyi] at h2
      show (Resid.negate ri).v.fn i = -pfb (q.b i - (q.A *ᵥ x.z.fn) i +
        E.opts.sigma0 * (x.v i - xbar.v i)) (x.v i) E.opts.alpha
      rw [← h2]
      exact congrFun (hz _) i
    have e4 : (fun i => slopes E.opts.alpha E.opts.sigma0 x xbar i) =
        fun i => pfbGradient E.opts.alpha (q.pairA E.opts.sigma0 xbar.v.fn x.z.fn x.v.fn i) (x.v.fn i) := by
      funext i
      rw [slopes, hyi]
      rfl
    rw [e1, e2, e3] at h1
    have e5 := congrFun e4
    simp only [e5] at h1
    exact h1
  have hmarg : ∀ t, Marg q (E.axpy t d x) := fun t => Marg.axpy S.ops hm (S.margin hg _) t
  have hcm2 : cm = 0.5 * Resid.norm ri * Resid.norm ri := rfl
  have hcm0 : cm ≤ m0 := by
    rw [hm0, mZero]
    split
    · have := entry_le_maxMerit (Alg.insertMerit cm buf) 0
      rwa [(insertMerit_get cm buf).1] at this
    · exact le_rfl
  -- the test passes for short steps
  have hpass : ∀ j : Nat, E.opts.beta ^ j ≤ q.safeStep E.opts M rho →
      Resid.merit (E.innerRes (E.axpy (backtracked E.opts.beta j) d x) xbar E.opts.sigma0) ≤
        m0 - 2.0 * backtracked E.opts.beta j * E.opts.eta * cm := by
    intro j hj
    rw [backtracked_real]
    set t := E.opts.beta ^ j with ht
    have ht0 : 0 ≤ t := by positivity
    have ht1 : t ≤ 1 := pow_le_one₀ hb0.le hb1
    rw [hri, innerRes_norm S.ops hm] at hF heps
    have hdec := S.decrease hdir hF heps.le ht0 ht1 hj
    have e : Resid.norm (E.innerRes (E.axpy t d x) xbar E.opts.sigma0) = ‖q.subRes E.opts.alpha
        E.opts.sigma0 xbar.z.fn xbar.l.fn xbar.v.fn (x.z.fn + t • d.z.fn) (x.l.fn + t • d.l.fn)
        (x.v.fn + t • d.v.fn)‖ := by
      rw [innerRes_norm S.ops (hmarg t)]
      simp only [Env.axpy, Vec.fn_add, Vec.fn_smul]
    have e2 : Resid.merit (E.innerRes (E.axpy t d x) xbar E.opts.sigma0) =
      0.5 * Resid.norm (E.innerRes (E.axpy t d x) xbar E.opts.sigma0) *
        Resid.norm (E.innerRes (E.axpy t d x) xbar E.opts.sigma0) := rfl
    rw [e2, e]
    rw [hri, innerRes_norm S.ops hm] at hcm2
    norm_num at hcm2 ⊢
    generalize ‖q.subRes E.opts.alpha E.opts.sigma0 xbar.z.fn xbar.l.fn xbar.v.fn x.z.fn x.l.fn x.v.fn‖ = n
      at hcm2 hdec
    have h6 : 2 * t * E.opts.eta * cm = t * E.opts.eta * n ^ 2 := by rw [hcm2]; ring
    rw [h6]
    linarith
  obtain ⟨j, -, hj, h3, h4, h5⟩ := lineSearch_spec E E.opts.sigma0 m0 cm x xbar d
    E.opts.maxLinesearchIters.toNat 0
  have h3' : (Core.newtonStep E E.opts.sigma0 xbar g x ri buf).1 =
      E.axpy (backtracked E.opts.beta j) d x := congrArg (fun t => E.axpy t d x) h3
  rw [h3']
  refine ⟨hmarg _, ?_⟩
  have hfail : ∀ i, i < j → q.safeStep E.opts M rho < E.opts.beta ^ i := fun i hi =>
    not_le.1 fun hle => h5 i (Nat.zero_le _) hi (hpass i hle)
  have hl1 : 1 ≤ E.opts.maxLinesearchIters := hr.maxLinesearchIters
  have hjlt : j < 0 + E.opts.maxLinesearchIters.toNat := by
    rcases Nat.lt_or_ge j (0 + E.opts.maxLinesearchIters.toNat) with h | h
    · exact h
    · exfalso
      have := hfail (E.opts.maxLinesearchIters.toNat - 1) (by omega)
      exact absurd S.linesearch (not_le.2 this)
  have htest := h4 hjlt
  have htlow : E.opts.beta * q.safeStep E.opts M rho ≤ E.opts.beta ^ j := by
    rcases Nat.eq_zero_or_pos j with h0 | h0
    · rw [h0, pow_zero]
      exact mul_le_one₀ hb1 hsafe0.le hsafe1
    · have := hfail (j - 1) (by omega)
      have e : E.opts.beta ^ j = E.opts.beta * E.opts.beta ^ (j - 1) := by
        rw [← pow_succ']; congr 1; omega
      rw [e]
      exact mul_le_mul_of_nonneg_left this.le hb0.le
  refine htest.trans ?_
  rw [backtracked_real]
  have hcm0' : 0 ≤ cm := by
    rw [hcm2, mul_assoc]
    exact mul_nonneg (by norm_num) (mul_self_nonneg _)
  have hk : q.newtonRate E.opts M rho * cm ≤ 2.0 * E.opts.beta ^ j * E.opts.eta * cm := by
    refine mul_le_mul_of_nonneg_right (mul_le_mul_of_nonneg_right ?_ he0.le) hcm0'
    norm_num
    linarith
  linarith

/-- While the subproblem is not solved the decrease is at least `gain`. -/
theorem SubCtx.gain_le {xbar M rho} (S : SubCtx E q xbar M rho)
    {x : Point ℝ nz nl nv} (heps : E.opts.innerTolMin < Resid.norm (E.innerRes x xbar E.opts.sigma0)) :
    gain q E.opts M rho ≤ q.newtonRate E.opts M rho * Resid.merit (E.innerRes x xbar E.opts.sigma0) := by
  have hr := S.inRange
  have hb0 : 0 < E.opts.beta := lt_of_lt_of_le (by norm_num) hr.beta.1
  have he0 : 0 < E.opts.eta := lt_of_lt_of_le (by norm_num) hr.eta.1
  have hi0 : 0 < E.opts.innerTolMin := lt_of_lt_of_le (by norm_num) hr.innerTolMin.1
  have hs := S.safe.1
  have e : Resid.merit (E.innerRes x xbar E.opts.sigma0) =
    0.5 * Resid.norm (E.innerRes x xbar E.opts.sigma0) * Resid.norm (E.innerRes x xbar E.opts.sigma0) := rfl
  have hcmlow : 0.5 * E.opts.innerTolMin ^ 2 ≤ Resid.merit (E.innerRes x xbar E.opts.sigma0) := by
    rw [e]
    norm_num
    nlinarith
  have hrate : 0 ≤ q.newtonRate E.opts M rho := by unfold QP.newtonRate; positivity
  refine le_trans (le_of_eq ?_) (mul_le_mul_of_nonneg_left hcmlow hrate)
  unfold gain QP.newtonRate
  norm_num
  ring

/-- Number of decreases after `n` steps, with a memory of five. -/
def levels (n : Nat) : Nat := (n + 4) / 5

/-- The number of Newton iterations of a subproblem. -/
theorem SubCtx.loop {xbar M rho} (S : SubCtx E q xbar M rho) {tol Ek : ℝ} (fuel : Nat) :
    ∀ i t Eo x newton buf rk o, Marg q x →
      Resid.merit (E.innerRes x xbar E.opts.sigma0) ≤
        0.5 * q.startResidual M rho ^ 2 - gain q E.opts M rho * levels i →
      (∀ k : Fin 5, buf k ≤ 0.5 * q.startResidual M rho ^ 2 - gain q E.opts M rho * levels (i - 1 - k)) →
      (innerLoop E tol E.opts.sigma0 Ek xbar fuel i t Eo x newton buf rk).2 = .ok o →
      ∃ n, o.newton = newton + n ∧
        gain q E.opts M rho * levels (i + n) ≤ 0.5 * q.startResidual M rho ^ 2 := by
  have hg0 := S.gain_pos
  have hmer0 : ∀ x : Point ℝ nz nl nv, 0 ≤ Resid.merit (E.innerRes x xbar E.opts.sigma0) := fun x => by
    have e : Resid.merit (E.innerRes x xbar E.opts.sigma0) =
      0.5 * Resid.norm (E.innerRes x xbar E.opts.sigma0) * Resid.norm (E.innerRes x xbar E.opts.sigma0) := rfl
    rw [e, mul_assoc]
    exact mul_nonneg (by norm_num) (mul_self_nonneg _)
  induction fuel with
  | zero =>
    intro i t Eo x newton buf rk o hm hx hbuf h
    simp only [innerLoop] at h
    cases h
    exact ⟨0, rfl, by have := hmer0 x; rw [Nat.add_zero]; linarith⟩
  | succ fuel ih =>
    intro i t Eo x newton buf rk o hm hx hbuf h
    have hstop : ∃ n, newton = newton + n ∧
        gain q E.opts M rho * levels (i + n) ≤ 0.5 * q.startResidual M rho ^ 2 :=
      ⟨0, rfl, by have := hmer0 x; rw [Nat.add_zero]; linarith⟩
    simp only [innerLoop] at h
    split at h
    · cases h; exact hstop
    · rename_i hns
      split at h
      · cases h; exact hstop
      · obtain ⟨g, hg, -⟩ := S.factor x xbar
        rw [hg] at h
        have heps : E.opts.innerTolMin < Resid.norm (E.innerRes x xbar E.opts.sigma0) :=
          not_le.1 fun hle => hns (.inr hle)
        have hr0 : 0 ≤ rho := S.rho0
        have hF0 := q.startResidual_nonneg S.M0 hr0
        have hF : Resid.norm (E.innerRes x xbar E.opts.sigma0) ≤ q.startResidual M rho := by
          have e : Resid.merit (E.innerRes x xbar E.opts.sigma0) =
            0.5 * Resid.norm (E.innerRes x xbar E.opts.sigma0) *
              Resid.norm (E.innerRes x xbar E.opts.sigma0) := rfl
          have h1 : 0 ≤ gain q E.opts M rho * levels i := by positivity
          rw [e] at hx
          refine abs_le_of_sq_le_sq' ?_ hF0 |>.2
          norm_num at hx
          nlinarith
        obtain ⟨hm', hdec0⟩ := S.newtonStep hm hF heps hg buf
        have hdec := hdec0.trans (sub_le_sub_left (S.gain_le heps) _)
        set cm := Resid.merit (E.innerRes x xbar E.opts.sigma0) with hcm
        obtain ⟨b0, bs⟩ := insertMerit_get cm buf
        have hlev : ∀ a b : Nat, a ≤ b → gain q E.opts M rho * levels a ≤ gain q E.opts M rho * levels b := by
          intro a b hab
          refine mul_le_mul_of_nonneg_left ?_ hg0.le
          exact_mod_cast Nat.div_le_div_right (by omega)
        have hbuf' : ∀ k : Fin 5, Alg.insertMerit cm buf k ≤
            0.5 * q.startResidual M rho ^ 2 - gain q E.opts M rho * levels (i - k) := by
          intro k
          refine Fin.cases ?_ (fun k => ?_) k
          · rw [b0]; exact hx
          · rw [bs]
            have := hbuf k.castSucc
            have e : i - 1 - (k.castSucc : Fin 5).val = i - (k.succ : Fin 5).val := by
              simp only [Fin.val_castSucc, Fin.val_succ]; omega
            rw [e] at this
            exact this
        have hm0 : mZero E (Alg.insertMerit cm buf) cm ≤
            0.5 * q.startResidual M rho ^ 2 - gain q E.opts M rho * levels (i - 4) := by
          rw [mZero]
          split
          · refine maxMerit_le fun k => (hbuf' k).trans ?_
            have := hlev (i - 4) (i - k) (by omega)
            linarith
          · have := hlev (i - 4) i (by omega)
            linarith
        have hnew : Resid.merit (E.innerRes (Core.newtonStep E E.opts.sigma0 xbar g x
            (E.innerRes x xbar E.opts.sigma0) buf).1 xbar E.opts.sigma0) ≤
            0.5 * q.startResidual M rho ^ 2 - gain q E.opts M rho * levels (i + 1) := by
          have h1 : gain q E.opts M rho * levels (i + 1) ≤
              gain q E.opts M rho * levels (i - 4) + gain q E.opts M rho := by
            have h2 : (levels (i + 1) : ℝ) ≤ levels (i - 4) + 1 := by
              have : levels (i + 1) ≤ levels (i - 4) + 1 := by unfold levels; omega
              exact_mod_cast this
            have := mul_le_mul_of_nonneg_left h2 hg0.le
            linarith
          linarith
        obtain ⟨n, h1, h2⟩ := ih _ _ _ _ _ _ _ _ hm' hnew (fun k => by
          rw [Nat.add_sub_cancel]; exact hbuf' k) h
        refine ⟨n + 1, by omega, ?_⟩
        rw [show i + (n + 1) = i + 1 + n by omega]
        exact h2

/-- With the monotone line search the merit function is reduced by a fixed factor. -/
theorem SubCtx.loopMono {xbar M rho} (S : SubCtx E q xbar M rho)
    (hmono : E.opts.nonmonotoneLinesearch = false) {tol Ek : ℝ} (fuel : Nat) :
    ∀ i t Eo x newton buf rk o, Marg q x →
      Resid.merit (E.innerRes x xbar E.opts.sigma0) ≤
        0.5 * q.startResidual M rho ^ 2 * (1 - q.newtonRate E.opts M rho) ^ i →
      (innerLoop E tol E.opts.sigma0 Ek xbar fuel i t Eo x newton buf rk).2 = .ok o →
      ∃ n, o.newton = newton + n ∧ (0 < n → E.opts.innerTolMin ^ 2 <
        q.startResidual M rho ^ 2 * (1 - q.newtonRate E.opts M rho) ^ (i + n - 1)) := by
  have hr := S.inRange
  have hb0 : 0 < E.opts.beta := lt_of_lt_of_le (by norm_num) hr.beta.1
  have hb1 : E.opts.beta ≤ 1 := le_trans hr.beta.2 (by norm_num)
  have he0 : 0 < E.opts.eta := lt_of_lt_of_le (by norm_num) hr.eta.1
  have he1 : E.opts.eta ≤ 1 / 2 := le_trans hr.eta.2 (by norm_num)
  have hi0 : 0 < E.opts.innerTolMin := lt_of_lt_of_le (by norm_num) hr.innerTolMin.1
  obtain ⟨hs0, hs1⟩ := S.safe
  have hc0 : 0 ≤ q.newtonRate E.opts M rho := by unfold QP.newtonRate; positivity
  have hc1 : 0 ≤ 1 - q.newtonRate E.opts M rho := by
    have h1 : E.opts.beta * q.safeStep E.opts M rho ≤ 1 := mul_le_one₀ hb1 hs0.le hs1
    have h2 : E.opts.beta * q.safeStep E.opts M rho * E.opts.eta ≤ 1 * (1 / 2) :=
      mul_le_mul h1 he1 he0.le zero_le_one
    unfold QP.newtonRate
    linarith
  induction fuel with
  | zero =>
    intro i t Eo x newton buf rk o hm hx h
    simp only [innerLoop] at h
    cases h
    exact ⟨0, rfl, fun h => absurd h (lt_irrefl _)⟩
  | succ fuel ih =>
    intro i t Eo x newton buf rk o hm hx h
    simp only [innerLoop] at h
    split at h
    · cases h; exact ⟨0, rfl, fun h => absurd h (lt_irrefl _)⟩
    · rename_i hns
      split at h
      · cases h; exact ⟨0, rfl, fun h => absurd h (lt_irrefl _)⟩
      · obtain ⟨g, hg, -⟩ := S.factor x xbar
        rw [hg] at h
        have heps : E.opts.innerTolMin < Resid.norm (E.innerRes x xbar E.opts.sigma0) :=
          not_le.1 fun hle => hns (.inr hle)
        have hr0 : 0 ≤ rho := S.rho0
        have hF0 := q.startResidual_nonneg S.M0 hr0
        have e : Resid.merit (E.innerRes x xbar E.opts.sigma0) =
          0.5 * Resid.norm (E.innerRes x xbar E.opts.sigma0) *
            Resid.norm (E.innerRes x xbar E.opts.sigma0) := rfl
        have hpow1 : (1 - q.newtonRate E.opts M rho) ^ i ≤ 1 := pow_le_one₀ hc1 (by linarith)
        have hsq : Resid.norm (E.innerRes x xbar E.opts.sigma0) ^ 2 ≤
            q.startResidual M rho ^ 2 * (1 - q.newtonRate E.opts M rho) ^ i := by
          rw [e] at hx
          norm_num at hx
          nlinarith
        have hF : Resid.norm (E.innerRes x xbar E.opts.sigma0) ≤ q.startResidual M rho := by
          refine abs_le_of_sq_le_sq' (hsq.trans ?_) hF0 |>.2
          exact mul_le_of_le_one_right (sq_nonneg _) hpow1
        have hlow : E.opts.innerTolMin ^ 2 <
            q.startResidual M rho ^ 2 * (1 - q.newtonRate E.opts M rho) ^ i :=
          lt_of_lt_of_le (pow_lt_pow_left₀ heps hi0.le two_ne_zero) hsq
        obtain ⟨hm', hdec⟩ := S.newtonStep hm hF heps hg buf
        rw [mZero, if_neg (by rw [hmono]; exact Bool.false_ne_true)] at hdec
        have hnew := hdec.trans (b := Resid.merit (E.innerRes x xbar E.opts.sigma0) -
            q.newtonRate E.opts M rho * Resid.merit (E.innerRes x xbar E.opts.sigma0))
          (c := 0.5 * q.startResidual M rho ^ 2 * (1 - q.newtonRate E.opts M rho) ^ (i + 1)) (by
            have := mul_le_mul_of_nonneg_left hx hc1
            rw [pow_succ]
            calc _ = (1 - q.newtonRate E.opts M rho) * Resid.merit (E.innerRes x xbar E.opts.sigma0) := by ring
              _ ≤ _ := this
              _ = _ := by ring)
        obtain ⟨n, h1, h2⟩ := ih _ _ _ _ _ _ _ _ hm' hnew h
        refine ⟨n + 1, by omega, fun _ => ?_⟩
        rcases Nat.eq_zero_or_pos n with h0 | h0
        · subst h0
          exact hlow
        · have := h2 h0
          rwa [show i + 1 + n - 1 = i + (n + 1) - 1 by omega] at this

/-- The number of Newton iterations of a subproblem. -/
theorem SubCtx.count {s : Outer ℝ nz nl nv} {M rho} (S : SubCtx E q s.xk M rho)
    (hm : Marg q s.xk) {tol o} (h : Inner E s tol o) :
    (o.newton : ℝ) ≤ s.newton + q.newtonPerProx E.opts M rho := by
  obtain ⟨o', h', rfl⟩ := subproblem_ok h.sub
  have hr := S.inRange
  have hstart := S.start
  rw [← innerRes_norm S.ops hm] at hstart
  have hg0 := S.gain_pos
  have hr0 : 0 ≤ rho := S.rho0
  have hF0 := q.startResidual_nonneg S.M0 hr0
  have hrate : 0 < q.newtonRate E.opts M rho := by
    have hb0 : 0 < E.opts.beta := lt_of_lt_of_le (by norm_num) hr.beta.1
    have he0 : 0 < E.opts.eta := lt_of_lt_of_le (by norm_num) hr.eta.1
    have hs0 := S.safe.1
    unfold QP.newtonRate; positivity
  have hi0 : 0 < E.opts.innerTolMin := lt_of_lt_of_le (by norm_num) hr.innerTolMin.1
  have hmer : Resid.merit (E.innerRes s.xk s.xk E.opts.sigma0) ≤ 0.5 * q.startResidual M rho ^ 2 := by
    have e : Resid.merit (E.innerRes s.xk s.xk E.opts.sigma0) =
      0.5 * Resid.norm (E.innerRes s.xk s.xk E.opts.sigma0) *
        Resid.norm (E.innerRes s.xk s.xk E.opts.sigma0) := rfl
    have hn0 : 0 ≤ Resid.norm (E.innerRes s.xk s.xk E.opts.sigma0) := Real.sqrt_nonneg _
    rw [e]
    norm_num
    nlinarith
  show ((o'.newton : ℕ) : ℝ) ≤ _
  suffices h : ∃ n : ℕ, o'.newton = s.newton + n ∧ (n : ℝ) ≤ q.newtonPerProx E.opts M rho by
    obtain ⟨n, h1, h2⟩ := h
    rw [h1]
    push_cast
    linarith
  cases hf : E.opts.nonmonotoneLinesearch with
  | true =>
    obtain ⟨n, h1, h2⟩ := S.loop _ _ _ _ _ _ _ _ _ hm (by
      have : levels 0 = 0 := rfl
      rw [this]
      simpa using hmer) (fun k => by
      have : levels (0 - 1 - k) = 0 := by
        unfold levels; omega
      rw [this]
      norm_num
      positivity) h'
    refine ⟨n, h1, ?_⟩
    have e : q.newtonPerProx E.opts M rho =
        5 * q.startResidual M rho ^ 2 / (2 * gain q E.opts M rho) := by
      simp only [QP.newtonPerProx, hf, if_true]
      have hb0 : E.opts.beta ≠ 0 := (lt_of_lt_of_le (by norm_num) hr.beta.1).ne'
      have he0 : E.opts.eta ≠ 0 := (lt_of_lt_of_le (by norm_num) hr.eta.1).ne'
      have hs0 := S.safe.1.ne'
      unfold QP.newtonRate gain
      have := hi0.ne'
      field_simp
    rw [e, le_div_iff₀ (by positivity)]
    have h4 : (n : ℝ) ≤ 5 * levels n := by
      have : n ≤ 5 * levels n := by unfold levels; omega
      exact_mod_cast this
    rw [Nat.zero_add] at h2
    have h5 := mul_le_mul_of_nonneg_right h4 hg0.le
    norm_num at h2
    nlinarith
  | false =>
    obtain ⟨n, h1, h2⟩ := S.loopMono hf _ _ _ _ _ _ _ _ _ hm (by rw [pow_zero, mul_one]; exact hmer) h'
    refine ⟨n, h1, ?_⟩
    simp only [QP.newtonPerProx, hf, Bool.false_eq_true, if_false]
    rcases Nat.eq_zero_or_pos n with h0 | h0
    · rw [h0]
      have := le_max_left 0 (Real.log (q.startResidual M rho ^ 2 / E.opts.innerTolMin ^ 2) /
        q.newtonRate E.opts M rho)
      push_cast
      linarith
    · have h3 := h2 h0
      rw [Nat.zero_add] at h3
      refine le_trans ?_ (add_le_add_right (le_max_right _ _) 1)
      have h4 : 1 - q.newtonRate E.opts M rho ≤ Real.exp (-q.newtonRate E.opts M rho) := by
        have := Real.add_one_le_exp (-q.newtonRate E.opts M rho)
        linarith
      have hi2 : 0 < E.opts.innerTolMin ^ 2 := by positivity
      have hc1 : 0 ≤ 1 - q.newtonRate E.opts M rho := by
        have hb1 : E.opts.beta ≤ 1 := le_trans hr.beta.2 (by norm_num)
        have he0 : 0 < E.opts.eta := lt_of_lt_of_le (by norm_num) hr.eta.1
        have he1 : E.opts.eta ≤ 1 / 2 := le_trans hr.eta.2 (by norm_num)
        obtain ⟨hs0, hs1⟩ := S.safe
        have h1 : E.opts.beta * q.safeStep E.opts M rho ≤ 1 := mul_le_one₀ hb1 hs0.le hs1
        have h2 : E.opts.beta * q.safeStep E.opts M rho * E.opts.eta ≤ 1 * (1 / 2) :=
          mul_le_mul h1 he1 he0.le zero_le_one
        unfold QP.newtonRate
        linarith
      have h5 : (1 - q.newtonRate E.opts M rho) ^ (n - 1) ≤
          Real.exp (-(((n - 1 : ℕ) : ℝ) * q.newtonRate E.opts M rho)) := by
        refine (pow_le_pow_left₀ hc1 h4 _).trans (le_of_eq ?_)
        rw [← Real.exp_nat_mul]
        congr 1
        ring
      have h6 : Real.exp (((n - 1 : ℕ) : ℝ) * q.newtonRate E.opts M rho) <
          q.startResidual M rho ^ 2 / E.opts.innerTolMin ^ 2 := by
        rw [lt_div_iff₀ hi2]
        have h7 := lt_of_lt_of_le h3 (mul_le_mul_of_nonneg_left h5 (sq_nonneg _))
        rw [Real.exp_neg] at h7
        have h8 := Real.exp_pos (((n - 1 : ℕ) : ℝ) * q.newtonRate E.opts M rho)
        rw [← div_eq_mul_inv, lt_div_iff₀ h8] at h7
        linarith
      have h9 : ((n - 1 : ℕ) : ℝ) * q.newtonRate E.opts M rho ≤
          Real.log (q.startResidual M rho ^ 2 / E.opts.innerTolMin ^ 2) := by
        rw [Real.le_log_iff_exp_le ((Real.exp_pos _).trans h6)]
        exact h6.le
      have h10 : ((n - 1 : ℕ) : ℝ) ≤ Real.log (q.startResidual M rho ^ 2 / E.opts.innerTolMin ^ 2) /
          q.newtonRate E.opts M rho := (le_div_iff₀ hrate).2 h9
      have h11 : (n : ℝ) = 1 + ((n - 1 : ℕ) : ℝ) := by
        rw [Nat.cast_sub h0]; push_cast; ring
      rw [h11]
      linarith

end Core
end Fbstab
