import Verif.Proofs.QuadraticMethod
import Verif.Props.Method

/-!
# C68: quadratic convergence

From a guess close to a strictly complementary solution, all Newton steps are full steps and the residuals of the
subproblems converge to zero quadratically.
-/

namespace Fbstab
open Matrix

/-- C68: the guess is close to a strictly complementary solution, so close that the constants in `Basin` allow it.
Then, for `FBstabDense`, every Newton step is a full step: at the display level ITER_DETAILED, every line about a
Newton iterate shows the step length 1, and a residual which is at most a constant times the square of the
previous one; and, at all display levels, no subproblem takes more than `N` Newton iterations. -/
theorem C68_dense (s : FBstabDense ℝ) (hs : s.Reachable) (p : DenseProblem ℝ) (x : CallerVar ℝ)
    (hf : DenseFits s.nz s.nl s.nv p x) (hy : x.YWritable s.nv) (hc : (s.qp p).Convex)
    {z l v} (hk : (s.qp p).KKT z l v) {m M : ℝ} (hsc : (s.qp p).StrictlyComplementary m M z v) {N : Nat}
    (hB : (s.qp p).Basin s.options m M N ((s.qp p).localReach s.options
      (PD.length ⟨(x.z.toVec s.nz).fn - z, (x.l.toVec s.nl).fn - l, (x.v.toVec s.nv).fn - v⟩)
      (Method.residual (s.qp p) s.options
        ⟨(x.z.toVec s.nz).fn, (x.l.toVec s.nl).fn, (x.v.toVec s.nv).fn⟩).norm)) :
    (s.options.displayLevel = .iterDetailed →
      QuadraticLog ((s.qp p).squareFactor s.options.alpha s.options.sigma0 m M) (s.solve p x).log) ∧
    ∀ out, (s.solve p x).result = .ok out → out.newtonIters ≤ (out.proxIters + 1) * N := by
  obtain ⟨sub, r, h1, -, h2, h3⟩ := C54_dense s hs p x hf hy hc
  have hq := Method.Run.quadratic hc (C01_reachable_dense s hs) (w := ⟨z, l, v⟩) hk hsc
    (x := ⟨(x.z.toVec s.nz).fn, (x.l.toVec s.nl).fn, (x.v.toVec s.nv).fn⟩) (N := N) hB h1
  refine ⟨fun hd => by rw [h2, hd]; exact hq.1, fun out ho => ?_⟩
  rcases hv : r.value with _ | ⟨out', w⟩
  · rw [hv, ho] at h3
    exact absurd h3.1 (by intro h; cases h)
  · rw [hv, ho] at h3
    have h4 := h3.1
    injection h4 with h4
    subst h4
    exact hq.2 out w hv

/-- C68 for `FBstabMpc`. -/
theorem C68_mpc (s : FBstabMpc ℝ) (hs : s.Reachable) (p : MpcProblem ℝ) (x : CallerVar ℝ)
    (hf : MpcFits s.N s.nx s.nu s.nc p x) (hcol : p.Columns) (hc : (s.ocp p).Convex)
    {z l v} (hk : (s.qp p).KKT z l v) {m M : ℝ} (hsc : (s.qp p).StrictlyComplementary m M z v) {N : Nat}
    (hB : (s.qp p).Basin s.options m M N ((s.qp p).localReach s.options
      (PD.length ⟨(x.z.toVec _).fn - z, (x.l.toVec _).fn - l, (x.v.toVec _).fn - v⟩)
      (Method.residual (s.qp p) s.options ⟨(x.z.toVec _).fn, (x.l.toVec _).fn, (x.v.toVec _).fn⟩).norm)) :
    (s.options.displayLevel = .iterDetailed →
      QuadraticLog ((s.qp p).squareFactor s.options.alpha s.options.sigma0 m M) (s.solve p x).log) ∧
    ∀ out, (s.solve p x).result = .ok out → out.newtonIters ≤ (out.proxIters + 1) * N := by
  obtain ⟨sub, r, h1, -, h2, h3⟩ := C54_mpc s hs p x hf hcol hc
  have hq := Method.Run.quadratic (s.newtonEnv (C01_reachable_mpc s hs) p hc).convex (C01_reachable_mpc s hs)
    (w := ⟨z, l, v⟩) hk hsc (x := ⟨(x.z.toVec _).fn, (x.l.toVec _).fn, (x.v.toVec _).fn⟩) (N := N) hB h1
  refine ⟨fun hd => by rw [h2, hd]; exact hq.1, fun out ho => ?_⟩
  rcases hv : r.value with _ | ⟨out', w⟩
  · rw [hv, ho] at h3
    exact absurd h3.1 (by intro h; cases h)
  · rw [hv, ho] at h3
    have h4 := h3.1
    injection h4 with h4
    subst h4
    exact hq.2 out w hv

/-! ## A run -/

/-- `min z^2 / 2 - 2 z` subject to `z <= 1`; the solution is `z = 1` with multiplier 1. -/
noncomputable def capQP : QP 1 0 1 := ⟨fun _ _ => 1, fun _ => -2, fun i _ => i.elim0, fun i => i.elim0, fun _ _ => 1, fun _ => 1⟩

noncomputable def capOptions : Params ℝ :=
  { Params.defaults with
    sigma0 := 1, sigmaMax := 1, alpha := 0.5, delta := 0.1, innerTolMin := 1e-14, absTol := 1e-14, relTol := 0,
    maxProxIters := 10, displayLevel := .iterDetailed }

theorem capOptions_inRange : capOptions.InRange := by
  constructor <;> simp only [capOptions, Params.defaults, Between] <;> norm_num

theorem capQP_convex : capQP.Convex where
  symm := by ext i j; rfl
  nonneg := fun z => by
    have : capQP.H *ᵥ z = z := by
      ext i
      have : i = 0 := Subsingleton.elim _ _
      subst this
      simp [capQP, mulVec, dotProduct]
    rw [this]
    exact dot_self_nonneg z

theorem capQP_kkt : capQP.KKT (fun _ => 1) 0 (fun _ => 1) where
  stationary := by
    ext i
    simp [QP.lagrangeGrad, capQP, mulVec, dotProduct, transpose]
    norm_num
  feasible := ⟨by ext i; exact i.elim0, fun i => by simp [capQP, mulVec, dotProduct]⟩
  dual _ := zero_le_one
  complementary i := by right; simp [capQP, mulVec, dotProduct]

theorem capQP_strict : capQP.StrictlyComplementary 1 1 (fun _ => 1) (fun _ => 1) where
  margin i := by simp [capQP, mulVec, dotProduct]
  bound i := by simp [capQP, mulVec, dotProduct]
  nonneg := zero_le_one

/-- The guess: `z = 1 + 1e-10`, `v = 1`. -/
noncomputable def capGuess : PD 1 0 1 := ⟨fun _ => 1 + 1e-10, 0, fun _ => 1⟩

theorem capQP_sizes : capQP.sizeH = 1 ∧ capQP.sizeG = 0 ∧ capQP.sizeA = 1 := by
  simp [QP.sizeH, QP.sizeG, QP.sizeA, capQP]

theorem capQP_errFactor : capQP.errFactor 0.5 1 = 17 := by
  unfold QP.errFactor
  rw [capQP_sizes.2.2]
  norm_num

theorem capGuess_dist : (capGuess.diff ⟨fun _ => 1, 0, fun _ => 1⟩).length = 1e-10 := by
  unfold PD.length PD.diff
  have e : (capGuess.z - fun _ => (1 : ℝ)) ⬝ᵥ (capGuess.z - fun _ => (1 : ℝ)) +
      (capGuess.l - 0) ⬝ᵥ (capGuess.l - 0) + (capGuess.v - fun _ => (1 : ℝ)) ⬝ᵥ (capGuess.v - fun _ => (1 : ℝ)) =
      (1e-10 : ℝ) ^ 2 := by
    simp [capGuess, dotProduct]
    norm_num
  rw [e, Real.sqrt_sq (by norm_num)]

/-- The parts of the residual at the guess. -/
theorem capGuess_residual : Method.residual capQP capOptions capGuess = ⟨1e-10, 0, 0.5e-10⟩ := by
  refine Method.Parts.ext ?_ ?_ ?_ <;> simp only [Method.residual]
  · have e : capQP.lagrangeGrad capGuess.z capGuess.l capGuess.v = fun _ => (1e-10 : ℝ) := by
      ext i
      simp [QP.lagrangeGrad, capQP, capGuess, mulVec, dotProduct, transpose]
      norm_num
    rw [e]
    unfold euclid
    simp only [dotProduct, Finset.univ_unique, Finset.sum_singleton]
    rw [Real.sqrt_mul_self (by norm_num)]
  · unfold euclid; simp
  · have e : (fun i => capOptions.alpha * min ((capQP.b - capQP.A *ᵥ capGuess.z) i) (capGuess.v i) +
        (1 - capOptions.alpha) * max 0 ((capQP.b - capQP.A *ᵥ capGuess.z) i) * max 0 (capGuess.v i)) =
        fun _ : Fin 1 => (-0.5e-10 : ℝ) := by
      ext i
      have e1 : (capQP.b - capQP.A *ᵥ capGuess.z) i = -1e-10 := by
        simp [capQP, capGuess, mulVec, dotProduct]
      rw [e1]
      show (0.5 : ℝ) * min (-1e-10) 1 + (1 - 0.5) * max 0 (-1e-10) * max 0 1 = _
      rw [min_eq_left (by norm_num), max_eq_left (by norm_num)]
      norm_num
    have e2 := congrArg euclid e
    refine e2.trans ?_
    unfold euclid
    simp only [dotProduct, Finset.univ_unique, Finset.sum_singleton]
    rw [neg_mul_neg, Real.sqrt_mul_self (by norm_num)]

theorem capGuess_norm : 1e-10 ≤ (Method.residual capQP capOptions capGuess).norm ∧
    (Method.residual capQP capOptions capGuess).norm ≤ 2e-10 := by
  rw [capGuess_residual]
  unfold Method.Parts.norm
  constructor
  · exact Real.le_sqrt_of_sq_le (by norm_num)
  · exact Real.sqrt_le_iff.2 ⟨by norm_num, by norm_num⟩

theorem capQP_squareFactor : 2e6 ≤ capQP.squareFactor 0.5 1 1 1 ∧ capQP.squareFactor 0.5 1 1 1 ≤ 3.2e6 := by
  unfold QP.squareFactor QP.distFactor
  rw [capQP_errFactor, capQP_sizes.2.2]
  norm_num

theorem capQP_basin : capQP.Basin capOptions 1 1 5 (capQP.localReach capOptions
    (capGuess.diff ⟨fun _ => 1, 0, fun _ => 1⟩).length (Method.residual capQP capOptions capGuess).norm) := by
  rw [capGuess_dist]
  obtain ⟨h1, h2⟩ := capGuess_norm
  set E := (Method.residual capQP capOptions capGuess).norm
  have hr : capQP.localReach capOptions 1e-10 E ≤ 5e-10 := by
    unfold QP.localReach
    show 1e-10 + capQP.errFactor 0.5 1 * (E * 0.1 / (1 - 0.1) + ((10 : Int) : ℝ) * 1e-14) ≤ _
    rw [capQP_errFactor]
    norm_num at *
    linarith
  have hr0 : 0 ≤ capQP.localReach capOptions 1e-10 E := by
    unfold QP.localReach
    show 0 ≤ 1e-10 + capQP.errFactor 0.5 1 * (E * 0.1 / (1 - 0.1) + ((10 : Int) : ℝ) * 1e-14)
    rw [capQP_errFactor]
    norm_num at *
    linarith
  set rho := capQP.localReach capOptions 1e-10 E
  have hR : capQP.startResidual 1 rho ≤ 7.1e-9 := by
    unfold QP.startResidual
    rw [capQP_sizes.1, capQP_sizes.2.1, capQP_sizes.2.2]
    norm_num at *
    nlinarith
  have hR0 : 0 ≤ capQP.startResidual 1 rho := capQP.startResidual_nonneg zero_le_one hr0
  obtain ⟨k1, k2⟩ := capQP_squareFactor
  refine ⟨by norm_num, ?_, ?_, ?_, ?_, by show (5 : Int) < 50; norm_num⟩
  · show (1 + capQP.sizeA + 2 * 1) * rho ≤ _
    rw [capQP_sizes.2.2]
    norm_num at *
    linarith
  · show (1 + capQP.sizeA + 1) * capQP.errFactor 0.5 1 * _ ≤ _
    rw [capQP_sizes.2.2, capQP_errFactor]
    norm_num at *
    linarith
  · show capQP.squareFactor 0.5 1 1 1 * _ ≤ _
    have := mul_le_mul k2 hR hR0 (by norm_num)
    norm_num at *
    linarith
  · show _ ≤ capQP.squareFactor 0.5 1 1 1 * 1e-14
    have := mul_le_mul_of_nonneg_right k1 (by norm_num : (0 : ℝ) ≤ 1e-14)
    refine le_trans ?_ this
    norm_num

/-- The residual of the first subproblem at its centre, in the part for stationarity, is that of the problem. -/
theorem capGuess_sub : 1e-10 ≤ (Method.subResidual capQP capOptions capGuess capGuess).norm := by
  have h1 : (Method.subResidual capQP capOptions capGuess capGuess).z = 1e-10 := by
    have h2 := congrArg Method.Parts.z capGuess_residual
    show euclid (capQP.lagrangeGrad capGuess.z capGuess.l capGuess.v + (1 : ℝ) • (capGuess.z - capGuess.z)) = _
    rw [sub_self, smul_zero, add_zero]
    exact h2
  unfold Method.Parts.norm
  rw [h1]
  refine Real.le_sqrt_of_sq_le ?_
  have := sq_nonneg (Method.subResidual capQP capOptions capGuess capGuess).l
  have := sq_nonneg (Method.subResidual capQP capOptions capGuess capGuess).v
  linarith

/-- With these options, the method takes at least one Newton step if the guess has a residual of more than 2e-14
which is not due to the complementarity part alone. -/
theorem cap_steps {nz nl nv : Nat} {q : QP nz nl nv} {g : PD nz nl nv} (hz : 0 < nz) {lo : ℝ} (hlo : 2e-14 < lo)
    (e1 : lo ≤ (Method.residual q capOptions g).norm) (e2 : (Method.residual q capOptions g).norm ≤ 2 * lo)
    (hsub : lo ≤ (Method.subResidual q capOptions g g).norm)
    {sub : ℝ} {r} (h : Method.Run q capOptions g sub r) :
    ∃ t rz rl rv, .detailedLine 1 t rz rl rv ∈ r.log := by
  have inner : ∀ {c tol f}, c = g → tol ≤ lo / 2 →
      Method.Inner q capOptions c tol 0 1 0 [] g f → ∃ t rz rl rv, .detailedLine 1 t rz rl rv ∈ f.log := by
    intro c tol f hc htol h
    subst hc
    have hna : ¬Method.Acceptable q capOptions c tol c := by
      rintro (⟨h, -⟩ | h)
      · norm_num at *; linarith
      · have h' : (Method.subResidual q capOptions c c).norm ≤ 1e-14 := h
        norm_num at *; linarith
    cases h with
    | accept _ h => exact absurd h hna
    | newtonLimit _ _ hn => exact absurd hn (by show ¬((200 : Int) ≤ _); norm_num)
    | innerLimit hi => exact absurd hi (by show ¬(((0 : Nat) : Int) + 1 = 50); norm_num)
    | step hi _ hn hd hj hr =>
      cases hr with
      | accept => exact ⟨_, _, _, _, List.mem_cons_of_mem _ List.mem_cons_self⟩
      | newtonLimit => exact ⟨_, _, _, _, List.mem_cons_of_mem _ List.mem_cons_self⟩
      | innerLimit => exact ⟨_, _, _, _, List.mem_cons_of_mem _ List.mem_cons_self⟩
      | step => exact ⟨_, _, _, _, List.mem_cons_of_mem _ List.mem_cons_self⟩
  cases h with
  | throws h => exact absurd h (by show ¬((_ : ℝ) < 1e-14); norm_num [capOptions, Params.defaults])
  | @starts r h hr =>
    have key : ∀ {f}, Method.Solved q capOptions ⟨0, 0, g, PD.length (PD.ones : PD nz nl nv),
        max (min (Method.residual q capOptions g).norm capOptions.innerTolMax) capOptions.innerTolMin,
        Method.residual q capOptions g, sub⟩ f → ∃ t rz rl rv, .detailedLine 1 t rz rl rv ∈ f.log := by
      intro f hf
      refine inner rfl ?_ hf.inner
      show max (min (max (min (Method.residual q capOptions g).norm capOptions.innerTolMax) 1e-14 * 0.1)
        (Method.residual q capOptions g).norm) (1e-14 : ℝ) ≤ _
      refine max_le ((min_le_left _ _).trans ?_) (by norm_num at *; linarith)
      have : max (min (Method.residual q capOptions g).norm capOptions.innerTolMax) (1e-14 : ℝ) ≤ 2 * lo :=
        max_le ((min_le_left _ _).trans e2) (by norm_num at *; linarith)
      refine (mul_le_mul_of_nonneg_right this (by norm_num : (0 : ℝ) ≤ 0.1)).trans (by norm_num at *; linarith)
    have put : ∀ {f : Method.Found nz nl nv} {a b : List (Msg ℝ)},
        (∃ t rz rl rv, (.detailedLine 1 t rz rl rv : Msg ℝ) ∈ f.log) →
        ∃ t rz rl rv, (.detailedLine 1 t rz rl rv : Msg ℝ) ∈ a ++ f.log ++ b := by
      rintro f a b ⟨t, rz, rl, rv, h⟩
      exact ⟨t, rz, rl, rv, List.mem_append_left _ (List.mem_append_right _ h)⟩
    have cons : ∀ {m : Msg ℝ} {l : List (Msg ℝ)}, (∃ t rz rl rv, (.detailedLine 1 t rz rl rv : Msg ℝ) ∈ l) →
        ∃ t rz rl rv, (.detailedLine 1 t rz rl rv : Msg ℝ) ∈ m :: l := by
      rintro m l ⟨t, rz, rl, rv, h⟩
      exact ⟨t, rz, rl, rv, List.mem_cons_of_mem _ h⟩
    have hgo : ¬Method.Stops q capOptions ⟨0, 0, g, PD.length (PD.ones : PD nz nl nv),
        max (min (Method.residual q capOptions g).norm capOptions.innerTolMax) capOptions.innerTolMin,
        Method.residual q capOptions g, sub⟩ := by
      rintro (h | h)
      · have h' : (Method.residual q capOptions g).norm ≤ 1e-14 + 0 * (1 +
          √(q.f ⬝ᵥ q.f + q.h ⬝ᵥ q.h + q.b ⬝ᵥ q.b)) := h
        rw [zero_mul] at h'
        norm_num at *
        linarith
      · have h' : PD.length (PD.ones : PD nz nl nv) ≤ capOptions.stallTol := h
        have h2 : (1 : ℝ) ≤ PD.length (PD.ones : PD nz nl nv) := by
          unfold PD.length PD.ones
          refine Real.le_sqrt_of_sq_le ?_
          have h3 : (1 : ℝ) ≤ nz := by exact_mod_cast hz
          have h4 : (0 : ℝ) ≤ nl := Nat.cast_nonneg _
          have h5 : (0 : ℝ) ≤ nv := Nat.cast_nonneg _
          simp [dotProduct]
          linarith
        norm_num [capOptions, Params.defaults] at h'
        linarith
    refine cons ?_
    cases hr with
    | proxLimit hk => exact absurd hk (by show ¬(((0 : Nat) : Int) = 10); norm_num)
    | success _ h => exact absurd h hgo
    | throws _ _ hb =>
      have hb' : (Method.residual q capOptions g).norm < 1e-14 := hb
      norm_num at *
      linarith
    | newtonLimit _ hf => exact put (key hf)
    | infeasible _ hf => exact put (key hf)
    | step _ hf => exact put (key hf)

/-- C68, the hypotheses can be met by a run with Newton steps: from the guess `z = 1 + 1e-10`, `v = 1` every
subproblem takes at most 5 Newton iterations, the log contains a line about a Newton step, and all of it shows
quadratic convergence. -/
example (junk : DenseJunk ℝ) :
    ∃ s : FBstabDense ℝ, s.Reachable ∧ ∃ p x, DenseFits s.nz s.nl s.nv p x ∧
      QuadraticLog (capQP.squareFactor 0.5 1 1 1) (s.solve p x).log ∧
      (∃ rz rl rv, .detailedLine 1 1 rz rl rv ∈ (s.solve p x).log) ∧
      ∀ out, (s.solve p x).result = .ok out → out.newtonIters ≤ (out.proxIters + 1) * 5 := by
  have hr : (FBstabDense.made junk 1 0 1 capOptions).Reachable :=
    FBstabDense.made_reachable junk _ (by norm_num) (by norm_num) (by norm_num [intLimit]) capOptions_inRange
  have hq : (FBstabDense.made junk 1 0 1 capOptions).qp capQP.toDense = capQP := FBstabDense.made_qp junk _ _
  have hf := capQP.toDense_fits capGuess.z capGuess.l capGuess.v
  obtain ⟨g1, g2, g3⟩ := guessOf_point capGuess.z capGuess.l capGuess.v
  obtain ⟨sub, r, h1, -, h2, -⟩ := C54_dense (FBstabDense.made junk 1 0 1 capOptions) hr capQP.toDense
    (guessOf capGuess.z capGuess.l capGuess.v) hf (guessOf_writable _ _ _ _) (hq ▸ capQP_convex)
  have h1' : Method.Run capQP capOptions capGuess sub r := by
    have h3 := h1
    rw [hq] at h3
    have h4 : Method.Run capQP capOptions ⟨((guessOf capGuess.z capGuess.l capGuess.v).z.toVec 1).fn,
      ((guessOf capGuess.z capGuess.l capGuess.v).l.toVec 0).fn,
      ((guessOf capGuess.z capGuess.l capGuess.v).v.toVec 1).fn⟩ sub r := h3
    rw [g1, g2, g3] at h4
    exact h4
  obtain ⟨a, b⟩ := C68_dense (FBstabDense.made junk 1 0 1 capOptions) hr capQP.toDense
    (guessOf capGuess.z capGuess.l capGuess.v) hf (guessOf_writable _ _ _ _) (hq ▸ capQP_convex)
    (z := fun _ => 1) (l := 0) (v := fun _ => 1) (by rw [hq]; exact capQP_kkt) (m := 1) (M := 1)
    (by rw [hq]; exact capQP_strict) (N := 5) (by
      rw [hq]
      have hB := capQP_basin
      have e : (⟨((guessOf capGuess.z capGuess.l capGuess.v).z.toVec _).fn,
        ((guessOf capGuess.z capGuess.l capGuess.v).l.toVec _).fn,
        ((guessOf capGuess.z capGuess.l capGuess.v).v.toVec _).fn⟩ : PD 1 0 1) = capGuess := PD.ext g1 g2 g3
      rw [← e] at hB
      exact hB)
  have a' := a rfl
  rw [hq] at a'
  refine ⟨_, hr, capQP.toDense, guessOf capGuess.z capGuess.l capGuess.v, hf, a', ?_, b⟩
  obtain ⟨t, rz, rl, rv, hm⟩ := cap_steps (by norm_num) (lo := 1e-10) (by norm_num) capGuess_norm.1
    (capGuess_norm.2.trans (by norm_num)) capGuess_sub h1'
  have hm' : (.detailedLine 1 t rz rl rv : Msg ℝ) ∈
      ((FBstabDense.made junk 1 0 1 capOptions).solve capQP.toDense
        (guessOf capGuess.z capGuess.l capGuess.v)).log := by
    rw [h2]
    exact List.mem_filter.2 ⟨hm, rfl⟩
  have ht : t = 1 := (a'.full _ hm').1
  subst ht
  exact ⟨_, _, _, hm'⟩

end Fbstab
