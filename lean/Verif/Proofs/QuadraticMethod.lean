import Verif.Spec.Quadratic
import Verif.Proofs.Quadratic
import Verif.Proofs.Method

/-!
# Quadratic convergence of the method
-/

namespace Fbstab
open Matrix

namespace Method
variable {nz nl nv : Nat} {q : QP nz nl nv} {o : Params ℝ}

theorem subResidual_norm (c x : PD nz nl nv) :
    (subResidual q o c x).norm = ‖q.subRes o.alpha o.sigma0 c.z c.l c.v x.z x.l x.v‖ := by
  unfold Parts.norm subResidual QP.subRes
  rw [vec3_norm]
  congr 1
  simp only [sq, euclid_sq]
  simp only [phi_eq]
  rfl

theorem IsDirection.newtonDir {c x d : PD nz nl nv} (h : IsDirection q o c x d) :
    q.NewtonDir o.alpha o.sigma0 c.z c.l c.v x.z x.l x.v d.z d.l d.v := by
  unfold QP.NewtonDir
  simp only [phiSlopes_eq, phi_eq]
  exact h

theorem along_one (x d : PD nz nl nv) : x.along 1 d = ⟨x.z + d.z, x.l + d.l, x.v + d.v⟩ := by
  unfold PD.along; simp

theorem le_reference (m : ℝ) (ms : List ℝ) : m ≤ reference o (m :: ms) := by
  unfold reference
  split_ifs
  · exact le_max_left _ _
  · exact le_rfl

theorem Parts.norm_nonneg (p : Parts) : 0 ≤ p.norm := Real.sqrt_nonneg _

/-- Newton's method is in its region of quadratic convergence in the subproblem at `c` when the residual of the
subproblem is at most `eps`. -/
def Quad (q : QP nz nl nv) (o : Params ℝ) (eps K : ℝ) (c : PD nz nl nv) : Prop :=
  ∀ x d, IsDirection q o c x d → (subResidual q o c x).norm ≤ eps →
    (subResidual q o c (x.along 1 d)).norm ≤ K * (subResidual q o c x).norm ^ 2

theorem Quad.full (ho : o.InRange) {eps K : ℝ} (hK : 0 < K) (hKe : K * eps ≤ 1 / 25) {c : PD nz nl nv}
    (hq : Quad q o eps K c) {x d} (hd : IsDirection q o c x d) (hx : (subResidual q o c x).norm ≤ eps)
    {ms : List ℝ} {j : Nat} (hj : Reductions q o c x d (merit q o c x :: ms) j) : j = 0 := by
  by_contra hne
  refine hj.failed 0 (Nat.pos_of_ne_zero hne) ?_
  have h1 := hq x d hd hx
  set r := (subResidual q o c x).norm with hr
  have hr0 : 0 ≤ r := Parts.norm_nonneg _
  have hp := Parts.norm_nonneg (subResidual q o c (x.along 1 d))
  have he := ho.eta.2
  unfold Passes
  rw [pow_zero]
  have h2 := le_reference (o := o) (merit q o c x) ms
  have hm : merit q o c x = r ^ 2 / 2 := rfl
  have hm' : merit q o c (x.along 1 d) = (subResidual q o c (x.along 1 d)).norm ^ 2 / 2 := rfl
  rw [hm'] at *
  have hKr : K * r ≤ 1 / 25 := (mul_le_mul_of_nonneg_left hx hK.le).trans hKe
  have h3 : K * r ^ 2 ≤ 1 / 25 * r := by
    have := mul_le_mul_of_nonneg_right hKr hr0
    linarith [show K * r ^ 2 = K * r * r by ring]
  have h4 : (subResidual q o c (x.along 1 d)).norm ^ 2 ≤ (1 / 25 * r) ^ 2 :=
    pow_le_pow_left₀ hp (h1.trans h3) 2
  have h5 : o.eta ≤ 0.499 := he
  have h6 : o.eta * r ^ 2 ≤ 0.499 * r ^ 2 := mul_le_mul_of_nonneg_right h5 (sq_nonneg _)
  rw [hm] at h2 ⊢
  have h7 : 0 ≤ r ^ 2 := sq_nonneg r
  have h8 : (1 / 25 * r) ^ 2 = r ^ 2 / 625 := by ring
  rw [h8] at h4
  linarith

theorem line_full {K : ℝ} {c x : PD nz nl nv} {i : Nat}
    (h : K * (subResidual q o c x).norm ≤ (1 / 2) ^ 2 ^ i) : (line q o c i 1 x).FullStep K := ⟨rfl, h⟩

theorem line_squared {K : ℝ} {c x x' : PD nz nl nv} {i i' : Nat} {t t' : ℝ}
    (h : (subResidual q o c x').norm ≤ K * (subResidual q o c x).norm ^ 2) :
    (line q o c i t x).Squared K (line q o c i' t' x') := h

/-- The Newton iterations of a subproblem in the region of quadratic convergence. -/
theorem Inner.quadratic (ho : o.InRange) {eps K : ℝ} (hK : 0 < K) (hKe : K * eps ≤ 1 / 25) {c : PD nz nl nv}
    (hq : Quad q o eps K c) {tol : ℝ} {i t n ms x f} (h : Inner q o c tol i t n ms x f) (ht : t = 1)
    (hx : (subResidual q o c x).norm ≤ eps)
    (hi : K * (subResidual q o c x).norm ≤ (1 / 2) ^ 2 ^ i) :
    QuadraticLog K f.log ∧ (subResidual q o c f.x).norm ≤ (subResidual q o c x).norm ∧
      f.log.head? = some (line q o c i t x) := by
  have next : ∀ {x d : PD nz nl nv}, IsDirection q o c x d → (subResidual q o c x).norm ≤ eps →
      (subResidual q o c (x.along 1 d)).norm ≤ (subResidual q o c x).norm := by
    intro x d hd hx
    refine (hq x d hd hx).trans ?_
    have hr0 := Parts.norm_nonneg (subResidual q o c x)
    have hKr : K * (subResidual q o c x).norm ≤ 1 / 25 := (mul_le_mul_of_nonneg_left hx hK.le).trans hKe
    have := mul_le_mul_of_nonneg_right hKr hr0
    linarith [show K * (subResidual q o c x).norm ^ 2 = K * (subResidual q o c x).norm * (subResidual q o c x).norm
      by ring]
  induction h with
  | accept hi' ha =>
    subst ht
    refine ⟨⟨?_, ?_⟩, le_rfl, rfl⟩
    · intro m hm
      rcases List.mem_cons.1 hm with rfl | hm
      · exact line_full hi
      · rcases List.mem_singleton.1 hm with rfl
        trivial
    · exact List.isChain_cons_cons.2 ⟨trivial, List.isChain_singleton _⟩
  | newtonLimit hi' ha hn =>
    subst ht
    refine ⟨⟨?_, List.isChain_singleton _⟩, le_rfl, rfl⟩
    intro m hm
    rcases List.mem_singleton.1 hm with rfl
    exact line_full hi
  | @innerLimit i' t' n' ms' x' d j hi' ha hn hd hj =>
    subst ht
    refine ⟨⟨?_, List.isChain_singleton _⟩, ?_, rfl⟩
    · intro m hm
      rcases List.mem_singleton.1 hm with rfl
      exact line_full hi
    · have hj0 := hq.full ho hK hKe hd hx hj
      subst hj0
      show (subResidual q o c (x'.along (o.beta ^ 0) d)).norm ≤ _
      rw [pow_zero]
      exact next hd hx
  | @step i' t' n' ms' x' d j f' hi' ha hn hd hj hr ih =>
    subst ht
    have hj0 := hq.full ho hK hKe hd hx hj
    subst hj0
    rw [pow_zero] at ih hr
    have h1 := hq _ _ hd hx
    have h2 := next hd hx
    have hr0 := Parts.norm_nonneg (subResidual q o c x')
    obtain ⟨⟨a1, a2⟩, a3, a4⟩ := ih rfl (h2.trans hx) (by
      have h3 := mul_le_mul_of_nonneg_left h1 hK.le
      refine h3.trans ?_
      have e1 : K * (K * (subResidual q o c x').norm ^ 2) = (K * (subResidual q o c x').norm) ^ 2 := by ring
      rw [e1]
      refine (pow_le_pow_left₀ (by positivity) hi 2).trans (le_of_eq ?_)
      rw [← pow_mul, pow_succ])
    refine ⟨⟨?_, ?_⟩, a3.trans h2, rfl⟩
    · intro m hm
      rcases List.mem_cons.1 hm with rfl | hm
      · exact line_full hi
      · exact a1 m hm
    · show List.IsChain _ (_ :: f'.log)
      cases hl : f'.log with
      | nil => exact List.isChain_singleton _
      | cons y ys =>
        rw [hl] at a2 a4
        injection a4 with a4
        subst a4
        exact List.isChain_cons_cons.2 ⟨line_squared h1, a2⟩

/-- The number of Newton iterations of a subproblem in the region of quadratic convergence. -/
theorem Inner.count (ho : o.InRange) {eps K : ℝ} (hK : 0 < K) (hKe : K * eps ≤ 1 / 25) {c : PD nz nl nv}
    (hq : Quad q o eps K c) {N : Nat} (hN : (1 / 2 : ℝ) ^ 2 ^ N ≤ K * o.innerTolMin) {tol : ℝ} {i t n ms x f}
    (h : Inner q o c tol i t n ms x f) (hx : (subResidual q o c x).norm ≤ eps)
    (hi : K * (subResidual q o c x).norm ≤ (1 / 2) ^ 2 ^ i) (hiN : i ≤ N) :
    f.newtons + i ≤ n + N ∧ ((N : Int) < o.maxInnerIters → (f.newtons : Int) < o.maxNewtonIters →
      Acceptable q o c tol f.x) := by
  have lt : ∀ {i : Nat} {x : PD nz nl nv}, ¬Acceptable q o c tol x →
      K * (subResidual q o c x).norm ≤ (1 / 2) ^ 2 ^ i → i < N := by
    intro i x hna hi
    by_contra hge
    refine hna (.inr ?_)
    have h1 : (1 / 2 : ℝ) ^ 2 ^ i ≤ (1 / 2 : ℝ) ^ 2 ^ N :=
      pow_le_pow_of_le_one (by norm_num) (by norm_num) (Nat.pow_le_pow_right (by norm_num) (not_lt.1 hge))
    exact le_of_mul_le_mul_left (hi.trans (h1.trans hN)) hK
  induction h with
  | accept hi' ha => exact ⟨Nat.add_le_add_left hiN _, fun _ _ => ha⟩
  | newtonLimit hi' ha hn =>
    exact ⟨Nat.add_le_add_left hiN _, fun _ h => absurd hn (not_le.2 h)⟩
  | innerLimit hi' ha hn hd hj =>
    have := lt ha hi
    refine ⟨?_, fun h _ => absurd hi' (by omega)⟩
    show _ + 1 + _ ≤ _
    omega
  | @step i' t' n' ms' x' d j f' hi' ha hn hd hj hr ih =>
    have hlt := lt ha hi
    have hj0 := hq.full ho hK hKe hd hx hj
    subst hj0
    rw [pow_zero] at ih hr
    have h1 := hq _ _ hd hx
    have hr0 := Parts.norm_nonneg (subResidual q o c x')
    have hKr : K * (subResidual q o c x').norm ≤ 1 / 25 := (mul_le_mul_of_nonneg_left hx hK.le).trans hKe
    have h5 := mul_le_mul_of_nonneg_right hKr hr0
    have h2 : (subResidual q o c (x'.along 1 d)).norm ≤ (subResidual q o c x').norm := by
      linarith [show K * (subResidual q o c x').norm ^ 2 =
        K * (subResidual q o c x').norm * (subResidual q o c x').norm by ring]
    obtain ⟨c1, c2⟩ := ih (h2.trans hx) (by
      have h3 := mul_le_mul_of_nonneg_left h1 hK.le
      refine h3.trans ?_
      have e1 : K * (K * (subResidual q o c x').norm ^ 2) = (K * (subResidual q o c x').norm) ^ 2 := by ring
      rw [e1]
      refine (pow_le_pow_left₀ (by positivity) hi 2).trans (le_of_eq ?_)
      rw [← pow_mul, pow_succ]) hlt
    refine ⟨?_, c2⟩
    show f'.newtons + i' ≤ _
    omega

/-! ## Logs -/

/-- The message is not a line about a Newton iterate. -/
def Quiet : Msg ℝ → Prop
  | .detailedLine .. => False
  | _ => True

theorem Quiet.full {K : ℝ} {m : Msg ℝ} (h : Quiet m) : m.FullStep K := by
  cases m <;> trivial

theorem Quiet.left {K : ℝ} {m m' : Msg ℝ} (h : Quiet m) : m.Squared K m' := by
  cases m <;> trivial

theorem Quiet.right {K : ℝ} {m m' : Msg ℝ} (h : Quiet m') : m.Squared K m' := by
  cases m' <;> cases m <;> trivial

theorem quadraticLog_append {K : ℝ} {a b : List (Msg ℝ)} (ha : QuadraticLog K a) (hb : QuadraticLog K b)
    (h : ∀ m ∈ b.head?, Quiet m) : QuadraticLog K (a ++ b) := by
  refine ⟨fun m hm => ?_, ?_⟩
  · rcases List.mem_append.1 hm with hm | hm
    · exact ha.full m hm
    · exact hb.full m hm
  · exact List.isChain_append.2 ⟨ha.squared, hb.squared, fun x _ y hy => (h y hy).right⟩

theorem quadraticLog_quiet {K : ℝ} {a b : List (Msg ℝ)} (ha : ∀ m ∈ a, Quiet m) (hb : QuadraticLog K b) :
    QuadraticLog K (a ++ b) := by
  induction a with
  | nil => exact hb
  | cons x xs ih =>
    have h1 := ih fun m hm => ha m (List.mem_cons_of_mem _ hm)
    have hx := ha x List.mem_cons_self
    refine ⟨fun m hm => ?_, ?_⟩
    · rcases List.mem_cons.1 hm with rfl | hm
      · exact hx.full
      · exact h1.full m hm
    · show List.IsChain _ (x :: (xs ++ b))
      cases hl : xs ++ b with
      | nil => exact List.isChain_singleton _
      | cons y ys =>
        have := h1.squared
        rw [hl] at this
        exact List.isChain_cons_cons.2 ⟨hx.left, this⟩

theorem quadraticLog_nil (K : ℝ) : QuadraticLog K [] := ⟨fun _ h => absurd h List.not_mem_nil, List.isChain_nil⟩

theorem Inner.visible {c : PD nz nl nv} {tol : ℝ} {i t n ms x f} (h : Inner q o c tol i t n ms x f) :
    f.log.filter (visible .iterDetailed) = f.log := by
  induction h with
  | accept => rfl
  | newtonLimit => rfl
  | innerLimit => rfl
  | step _ _ _ _ _ _ ih =>
    rw [List.filter_cons_of_pos (by rfl), ih]

theorem opening_visible (s : Iterate nz nl nv) : (opening q o s).filter (visible .iterDetailed) =
    [.detailedHeader s.k s.newtons (residual q o s.x).norm, .detailedColumns] := rfl

/-- The log of a call that ends. -/
theorem finish_visible (before : List (Msg ℝ)) (out : SolverOut ℝ) (p : Parts) (x : PD nz nl nv) :
    (finish q o before out p x).log.filter (visible .iterDetailed) =
      before.filter (visible .iterDetailed) ++ summary o out p.z p.l p.v (tolerance q o) := by
  show (before ++ _).filter _ = _
  rw [List.filter_append]
  rfl

theorem summary_quiet (out : SolverOut ℝ) (a b c t : ℝ) : ∀ m ∈ summary o out a b c t, Quiet m := by
  intro m hm
  simp only [summary, List.mem_cons, List.not_mem_nil, or_false] at hm
  rcases hm with rfl | rfl | rfl | rfl | rfl | rfl | rfl | rfl <;> trivial

/-! ## The proximal iterations -/

/-- The distance of two points. -/
noncomputable def dist (x y : PD nz nl nv) : ℝ := ‖vec3 x.z x.l x.v - vec3 y.z y.l y.v‖

theorem dist_nonneg (x y : PD nz nl nv) : 0 ≤ dist x y := norm_nonneg _

theorem dist_eq (x y : PD nz nl nv) : dist x y = (x.diff y).length := by
  unfold dist PD.length PD.diff
  rw [vec3_sub, vec3_norm]

theorem dist_clip {x s : PD nz nl nv} (hs : ∀ i, 0 ≤ s.v i) : dist x.clip s ≤ dist x s := by
  unfold dist
  rw [vec3_sub, vec3_sub]
  refine vec3_mono (fun i => le_rfl) (fun i => le_rfl) fun i => ?_
  show |max (x.v i) 0 - s.v i| ≤ |x.v i - s.v i|
  have := hs i
  rcases le_total 0 (x.v i) with h | h
  · rw [max_eq_left h]
  · rw [max_eq_right h, zero_sub, abs_neg, abs_of_nonneg this, abs_of_nonpos (by linarith)]
    linarith

/-- Everything converges quadratically as long as the iterates stay within `rho` of the solution. -/
structure Local (q : QP nz nl nv) (o : Params ℝ) (w : PD nz nl nv) (rho eps K : ℝ) (N : Nat) : Prop where
  K_pos : 0 < K
  small : K * eps ≤ 1 / 25
  quad : ∀ c, dist c w ≤ rho → Quad q o eps K c
  init : ∀ c, dist c w ≤ rho → (subResidual q o c c).norm ≤ eps
  steps : (1 / 2 : ℝ) ^ 2 ^ N ≤ K * o.innerTolMin
  inner : (N : Int) < o.maxInnerIters

theorem Local.solved (ho : o.InRange) {w : PD nz nl nv} {rho eps K : ℝ} {N : Nat} (H : Local q o w rho eps K N)
    {s : Iterate nz nl nv} (hs : dist s.x w ≤ rho) {f} (hf : Solved q o s f) :
    QuadraticLog K f.log ∧ f.newtons ≤ s.newtons + N ∧ ((f.newtons : Int) < o.maxNewtonIters →
      Acceptable q o s.x (nextTol q o s) f.x) := by
  have h1 := H.init s.x hs
  have h3 := H.small
  have h4 : K * (subResidual q o s.x s.x).norm ≤ (1 / 2) ^ 2 ^ 0 := by
    refine (mul_le_mul_of_nonneg_left h1 H.K_pos.le).trans (h3.trans ?_)
    norm_num
  obtain ⟨a, -, -⟩ := hf.inner.quadratic ho H.K_pos h3 (H.quad s.x hs) rfl h1 h4
  obtain ⟨b, c⟩ := hf.inner.count ho H.K_pos h3 (H.quad s.x hs) H.steps h1 h4 (Nat.zero_le _)
  exact ⟨a, b, c H.inner⟩

theorem Outer.quadratic (hc : q.Convex) (ho : o.InRange) {w : PD nz nl nv} (hk : q.KKT w.z w.l w.v)
    {rho eps K : ℝ} {N : Nat} (H : Local q o w rho eps K N) {E0 : ℝ} {s : Iterate nz nl nv} {r}
    (h : Outer q o E0 s r) {n : Nat} (hn : (s.k : Int) + n = o.maxProxIters) {a : ℝ} (ha0 : 0 ≤ a)
    (hat : s.tol ≤ a + o.innerTolMin)
    (hs : dist s.x w + q.errFactor o.alpha o.sigma0 * (a * o.delta / (1 - o.delta) + n * o.innerTolMin) ≤ rho) :
    (QuadraticLog K (r.log.filter (visible .iterDetailed)) ∧
      ∀ m ∈ (r.log.filter (visible .iterDetailed)).head?, Quiet m) ∧
    ∀ out x, r.value = some (out, x) → s.newtons ≤ s.k * N → out.newtonIters ≤ (out.proxIters + 1) * N := by
  have ha := ho.alpha_pos
  have ha' := ho.alpha_lt
  have hsig := ho.sigma_pos
  have he := (QP.errFactor_pos q ha hsig).le
  have hd0 : 0 < o.delta := lt_of_lt_of_le (by norm_num) ho.delta.1
  have hd1 : o.delta < 1 := lt_of_le_of_lt ho.delta.2 (by norm_num)
  have ht0 : 0 ≤ o.innerTolMin := le_trans (by norm_num) ho.innerTolMin.1
  have near : ∀ {x : PD nz nl nv} {n : Nat} {a : ℝ}, 0 ≤ a → dist x w + q.errFactor o.alpha o.sigma0 *
      (a * o.delta / (1 - o.delta) + n * o.innerTolMin) ≤ rho → dist x w ≤ rho := by
    intro x n a ha h
    have h1 : 0 < 1 - o.delta := by linarith
    have : 0 ≤ q.errFactor o.alpha o.sigma0 * (a * o.delta / (1 - o.delta) + n * o.innerTolMin) := by positivity
    linarith
  have quietHead : ∀ {m : Msg ℝ} {l : List (Msg ℝ)}, Quiet m → ∀ m' ∈ (m :: l).head?, Quiet m' := by
    intro m l hm m' h'
    cases h'
    exact hm
  have hsub : ∀ (s : Iterate nz nl nv) {f}, dist s.x w ≤ rho → Solved q o s f → ∀ (b : List (Msg ℝ)),
      QuadraticLog K b → (∀ m ∈ b.head?, Quiet m) →
      QuadraticLog K ((opening q o s ++ f.log).filter (visible .iterDetailed) ++ b) ∧
        ∀ m ∈ ((opening q o s ++ f.log).filter (visible .iterDetailed) ++ b).head?, Quiet m := by
    intro s f hs hf b hb hb'
    rw [List.filter_append, opening_visible, hf.inner.visible]
    refine ⟨?_, quietHead (by trivial)⟩
    rw [List.append_assoc]
    refine quadraticLog_quiet ?_ (quadraticLog_append (H.solved ho hs hf).1 hb hb')
    intro m hm
    simp only [List.mem_cons, List.not_mem_nil, or_false] at hm
    rcases hm with rfl | rfl <;> trivial
  have hfin : ∀ (out : SolverOut ℝ) (p : Parts), QuadraticLog K (summary o out p.z p.l p.v (tolerance q o)) := by
    intro out p
    have := quadraticLog_quiet (K := K) (summary_quiet (o := o) out p.z p.l p.v (tolerance q o))
      (quadraticLog_nil K)
    rwa [List.append_nil] at this
  induction h generalizing n a with
  | @proxLimit s hk' =>
    rw [finish_visible]
    refine ⟨⟨hfin _ _, quietHead (by trivial)⟩, ?_⟩
    intro out x hv hsn
    injection hv with hv
    injection hv with h1 h2
    subst h1
    show s.newtons ≤ (s.k + 1) * N
    linarith
  | @success s hk' h =>
    rw [finish_visible]
    refine ⟨⟨hfin _ _, quietHead (by trivial)⟩, ?_⟩
    intro out x hv hsn
    injection hv with hv
    injection hv with h1 h2
    subst h1
    show s.newtons ≤ (s.k + 1) * N
    linarith
  | throws hk' h hb =>
    rw [opening_visible]
    refine ⟨⟨⟨?_, List.isChain_cons_cons.2 ⟨trivial, List.isChain_singleton _⟩⟩, quietHead (by trivial)⟩, ?_⟩
    · intro m hm
      simp only [List.mem_cons, List.not_mem_nil, or_false] at hm
      rcases hm with rfl | rfl <;> trivial
    · intro out x hv
      cases hv
  | @newtonLimit s f x hk' hf hn' hx =>
    rw [finish_visible]
    refine ⟨hsub _ (near ha0 hs) hf _ (hfin _ _) (quietHead (by trivial)), ?_⟩
    intro out x hv hsn
    injection hv with hv
    injection hv with h1 h2
    subst h1
    have := (H.solved ho (near ha0 hs) hf).2.1
    show f.newtons ≤ (s.k + 1) * N
    linarith
  | @infeasible s f e hk' hf hn' hch hfl =>
    rw [finish_visible]
    refine ⟨hsub _ (near ha0 hs) hf _ (hfin _ _) (quietHead (by trivial)), ?_⟩
    intro out x hv hsn
    injection hv with hv
    injection hv with h1 h2
    subst h1
    have := (H.solved ho (near ha0 hs) hf).2.1
    show f.newtons ≤ (s.k + 1) * N
    linarith
  | @step s f r hk' hf hn' hch hr ih =>
    obtain ⟨n, rfl⟩ : ∃ n', n = n' + 1 := ⟨n - 1, by omega⟩
    obtain ⟨-, hcnt, hacc⟩ := H.solved ho (near ha0 hs) hf
    have hT : nextTol q o s ≤ a * o.delta + o.innerTolMin := by
      refine max_le ?_ ?_
      · refine (min_le_left _ _).trans ?_
        have h1 := mul_le_mul_of_nonneg_right hat hd0.le
        have h2 : o.innerTolMin * o.delta ≤ o.innerTolMin := mul_le_of_le_one_right ht0 hd1.le
        linarith
      · have := mul_nonneg ha0 hd0.le
        linarith
    have hfx : (subResidual q o s.x f.x).norm ≤ a * o.delta + o.innerTolMin := by
      rcases hacc hn' with ⟨h, -⟩ | h
      · exact h.trans hT
      · have := mul_nonneg ha0 hd0.le
        linarith
    have hnear : dist f.x w ≤ dist s.x w + q.errFactor o.alpha o.sigma0 * (a * o.delta + o.innerTolMin) := by
      have h1 := QP.subRes_near hc ha ha' hsig (zb := s.x.z) (lb := s.x.l) (vb := s.x.v) (z := f.x.z) (l := f.x.l)
        (v := f.x.v) hk
      rw [subResidual_norm] at hfx
      have h2 := mul_le_mul_of_nonneg_left hfx he
      exact h1.trans (add_le_add le_rfl h2)
    obtain ⟨⟨c1, c2⟩, c3⟩ := ih (n := n) (a := a * o.delta) (by push_cast at hn ⊢; omega)
      (mul_nonneg ha0 hd0.le) hT (by
      have h1 := (dist_clip (x := f.x) (s := w) hk.dual).trans hnear
      refine le_trans (add_le_add h1 le_rfl) (le_trans (le_of_eq ?_) hs)
      have h1 : 1 - o.delta ≠ 0 := by linarith
      push_cast
      field_simp
      ring)
    refine ⟨?_, ?_⟩
    · show QuadraticLog K ((opening q o s ++ f.log ++ r.log).filter _) ∧ _
      rw [List.filter_append (l₂ := r.log)]
      exact hsub _ (near ha0 hs) hf _ c1 c2
    · intro out x hv hsn
      refine c3 out x hv ?_
      show f.newtons ≤ (s.k + 1) * N
      linarith

theorem squareFactor_pos (ho : o.InRange) {m M : ℝ} (hm : 0 < m) (hM : 0 ≤ M) :
    0 < q.squareFactor o.alpha o.sigma0 m M := by
  have := QP.errFactor_pos q ho.alpha_pos ho.sigma_pos
  have := q.sizeA_nonneg
  have := ho.sigma_pos
  unfold QP.squareFactor QP.distFactor
  positivity

theorem Local.of_basin (hc : q.Convex) (ho : o.InRange) {w : PD nz nl nv} (hk : q.KKT w.z w.l w.v) {m M : ℝ}
    (hsc : q.StrictlyComplementary m M w.z w.v) {N : Nat} {rho : ℝ} (hB : q.Basin o m M N rho) :
    Local q o w rho (q.startResidual M rho) (q.squareFactor o.alpha o.sigma0 m M) N where
  K_pos := squareFactor_pos ho (lt_trans (by norm_num) hB.margin) hsc.nonneg
  small := hB.square
  quad := by
    intro c hcw x d hd hx
    have h6 := hk.quadratic hc ho.alpha_pos ho.alpha_lt ho.sigma_pos hB.margin hsc hB.centres hB.pairs hB.square
      (zb := c.z) (lb := c.l) (vb := c.v) hcw hd.newtonDir (by rw [← subResidual_norm]; exact hx)
    rw [subResidual_norm, along_one, subResidual_norm]
    exact h6
  init := by
    intro c hcw
    rw [subResidual_norm]
    exact QP.subRes_start (q := q) (sigma := o.sigma0) ho.alpha_pos ho.alpha_lt (zb := c.z) (lb := c.l) (vb := c.v)
      hk hsc.nonneg hsc.bound hcw
  steps := hB.steps
  inner := hB.inner

/-- Calls that start close to a strictly complementary solution. -/
theorem Run.quadratic (hc : q.Convex) (ho : o.InRange) {w : PD nz nl nv} (hk : q.KKT w.z w.l w.v) {m M : ℝ}
    (hsc : q.StrictlyComplementary m M w.z w.v) {N : Nat} {x : PD nz nl nv}
    (hB : q.Basin o m M N (q.localReach o (x.diff w).length (residual q o x).norm)) {sub : ℝ} {r}
    (hr : Run q o x sub r) :
    QuadraticLog (q.squareFactor o.alpha o.sigma0 m M) (r.log.filter (visible .iterDetailed)) ∧
      ∀ out y, r.value = some (out, y) → out.newtonIters ≤ (out.proxIters + 1) * N := by
  have H := Local.of_basin hc ho hk hsc hB
  cases hr with
  | throws h => exact ⟨quadraticLog_nil _, fun _ _ h => by cases h⟩
  | starts h hr =>
    have hm := ho.maxProxIters
    have hE := Parts.norm_nonneg (residual q o x)
    have ht0 : 0 ≤ o.innerTolMin := le_trans (by norm_num) ho.innerTolMin.1
    obtain ⟨⟨a, -⟩, c⟩ := hr.quadratic hc ho hk H (n := o.maxProxIters.toNat) (a := (residual q o x).norm)
      (by show ((0 : Nat) : Int) + _ = _; push_cast; omega) hE
      (max_le ((min_le_left _ _).trans (by linarith)) (by linarith)) (by
        rw [dist_eq]
        refine le_of_eq ?_
        have e : ((o.maxProxIters.toNat : Nat) : ℝ) = (o.maxProxIters : ℝ) := by
          rw [← Int.cast_natCast, Int.toNat_of_nonneg (by omega)]
        rw [e]
        rfl)
    exact ⟨a, fun out y hv => c out y hv (Nat.zero_le _)⟩

end Method
end Fbstab
