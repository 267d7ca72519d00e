import Verif.Props.Newton
import Verif.Props.Mpc
import Verif.Proofs.Riccati
import Verif.Proofs.RealCore

/-!
# C25, C32: the Newton step of the Riccati solver

Over the reals.  `Ocp.toQP` (`Verif/Spec/Ocp.lean`) is the stacked quadratic program.
-/

namespace Fbstab
open Matrix
variable {N nx nu nc : Nat}

/-- C25: on an optimal control problem whose stage Hessians are symmetric positive semidefinite,
with any contents of the workspaces, `Initialize` succeeds at every pair of points and the Riccati
recursion returns the one and only solution of the Newton system of the stacked quadratic program,
together with `y = b - A z`. -/
theorem C25_riccati (d : MpcData ℝ N nx nu nc) (hc : (Ocp.ofMpc d).Convex) {alpha sigma : ℝ}
    (h0 : 0 < alpha) (h1 : alpha < 1) (hs : 0 < sigma)
    (w : RiccatiWs ℝ N nx nu nc) (hd : w.data = some d) (ha : w.alpha = alpha)
    (x xbar : Point ℝ ((N + 1) * (nx + nu)) ((N + 1) * nx) ((N + 1) * nc)) :
    ∃ w', RiccatiWs.init x xbar sigma w = .ok true w' ∧ ∀ r dx0, ∃ w'' dx,
      RiccatiWs.solve r dx0 w' = .ok (true, dx) w'' ∧
      (∀ dz dl dv, (Ocp.ofMpc d).toQP.NewtonSystem sigma
        (fun i => (pfbGradient alpha (x.y i + sigma * (x.v i - xbar.v i)) (x.v i)).1)
        (fun i => (pfbGradient alpha (x.y i + sigma * (x.v i - xbar.v i)) (x.v i)).2)
        r.z.fn r.l.fn r.v.fn dz dl dv ↔ dz = dx.z.fn ∧ dl = dx.l.fn ∧ dv = dx.v.fn) ∧
      dx.y.fn = (Ocp.ofMpc d).toQP.b - (Ocp.ofMpc d).toQP.A *ᵥ dx.z.fn := by
  obtain ⟨hf, hstep⟩ := riccati_newton d hc h0 h1 hs x xbar
  have hspec := (riccatiSem ℝ real_zero_beq N nx nu nc).spec d alpha w x xbar sigma ⟨hd, ha⟩
  have : (riccatiSem ℝ real_zero_beq N nx nu nc).factor d alpha x xbar sigma = _ := hf
  rw [this] at hspec
  obtain ⟨w', hi, hw⟩ := hspec
  refine ⟨w', hi, fun r dx0 => ?_⟩
  obtain ⟨w'', hsol, -⟩ := hw r dx0
  have hn := hstep r
  refine ⟨w'', _, hsol, fun dz dl dv => ⟨fun h => ?_, ?_⟩, riccatiStep_margin _ _ _ _ _ _⟩
  · refine QP.NewtonSystem.unique ((C29_convex _).2 hc) hs (fun i => (pfbGradient_nonneg h0 h1 _ _).1)
      (fun i => (C31_positive h0 h1 hs _ _).2.2) h hn
  · rintro ⟨rfl, rfl, rfl⟩
    exact hn

/-- C25: `Initialize` throws exactly when no data were linked or `sigma <= 0`. -/
theorem C25_throws {K : Type} [Scalar K] (w : RiccatiWs K N nx nu nc)
    (x xbar : Point K ((N + 1) * (nx + nu)) ((N + 1) * nx) ((N + 1) * nc)) (sigma : K) :
    (∃ e w', RiccatiWs.init x xbar sigma w = .error e w') ↔ w.data = none ∨ sigma ≤ 0 := by
  unfold RiccatiWs.init
  by_cases h : sigma ≤ 0
  · simp [h]
  · cases w.data with
    | none => simp [h]
    | some d =>
      simp only [h, if_false, or_false, reduceCtorEq, iff_false]
      rintro ⟨e, w', he⟩
      split at he <;> cases he

/-- The hypotheses of C25 are met by a problem with horizon 1, dynamics `x(1) = 2 x(0) + u(0)`, a
singular terminal Hessian and constraints that couple state and control. -/
example : ∃ d : MpcData ℝ 1 1 1 1, (Ocp.ofMpc d).Convex ∧ (d.A 0) 0 0 = 2 ∧ (d.B 0) 0 0 = 1 ∧
    (d.S 0) 0 0 = 1 ∧ (d.Q 1) 0 0 = 0 := by
  refine ⟨{
    Q := Vec.ofFn fun i => Mat.ofFn fun _ _ => if i = 0 then 1 else 0
    R := Vec.const (Mat.ofFn fun _ _ => 1)
    S := Vec.ofFn fun i => Mat.ofFn fun _ _ => if i = 0 then 1 else 0
    q := Vec.const (Vec.const 1), r := Vec.const (Vec.const 1)
    A := Vec.const (Mat.ofFn fun _ _ => 2), B := Vec.const (Mat.ofFn fun _ _ => 1)
    c := Vec.const (Vec.const 0)
    E := Vec.const (Mat.ofFn fun _ _ => 1), L := Vec.const (Mat.ofFn fun _ _ => -1)
    d := Vec.const (Vec.const (-3)), x0 := Vec.const 1 }, ⟨?_, ?_, ?_⟩, ?_, ?_, ?_, ?_⟩
  · intro i; ext a b; simp [Ocp.ofMpc]
  · intro i; ext a b; simp [Ocp.ofMpc]
  · intro i x u
    simp only [Ocp.ofMpc, mulVec, dotProduct, Finset.univ_unique, Finset.sum_singleton, Mat.fn_apply,
      Vec.get_ofFn, Vec.get_const, Mat.get_ofFn]
    split
    · nlinarith [sq_nonneg (x default + u default)]
    · nlinarith [sq_nonneg (u default)]
  all_goals simp

/-- C32 for the Riccati solver: at a point where the residual is differentiable the direction
satisfies `d/dt merit(x + t dx) = -2 merit(x)` at `t = 0`, and the sufficient decrease test holds for
all sufficiently small steps `beta^j`. -/
theorem C32_mpc (d : MpcData ℝ N nx nu nc) (hc : (Ocp.ofMpc d).Convex) {alpha sigma : ℝ}
    (h0 : 0 < alpha) (h1 : alpha < 1) (hs : 0 < sigma)
    (w : RiccatiWs ℝ N nx nu nc) (hd : w.data = some d) (ha : w.alpha = alpha)
    (x xbar dx0 : Point ℝ ((N + 1) * (nx + nu)) ((N + 1) * nx) ((N + 1) * nc))
    (hy : x.y.fn = (Ocp.ofMpc d).toQP.b - (Ocp.ofMpc d).toQP.A *ᵥ x.z.fn)
    (hsm : SmoothAt (Ocp.ofMpc d).toQP sigma xbar.v.fn x.z.fn x.v.fn)
    (r : Resid ℝ ((N + 1) * (nx + nu)) ((N + 1) * nx) ((N + 1) * nc))
    (hr : MinusResidual (Ocp.ofMpc d).toQP alpha sigma xbar x r) :
    ∃ w' w'' dx, RiccatiWs.init x xbar sigma w = .ok true w' ∧
      RiccatiWs.solve r dx0 w' = .ok (true, dx) w'' ∧
      HasDerivAt ((Ocp.ofMpc d).toQP.pfbMeritAlong alpha sigma xbar x dx)
        (-(2 * (Ocp.ofMpc d).toQP.pfbMerit alpha sigma xbar x)) 0 ∧
      (0 < (Ocp.ofMpc d).toQP.pfbMerit alpha sigma xbar x → ∀ eta < 1, ∀ beta, 0 < beta → beta < 1 →
        ∃ J : ℕ, ∀ j ≥ J, (Ocp.ofMpc d).toQP.pfbMeritAlong alpha sigma xbar x dx (beta ^ j) ≤
          (Ocp.ofMpc d).toQP.pfbMerit alpha sigma xbar x -
            2 * beta ^ j * eta * (Ocp.ofMpc d).toQP.pfbMerit alpha sigma xbar x) := by
  obtain ⟨w', hi, hw⟩ := C25_riccati d hc h0 h1 hs w hd ha x xbar
  obtain ⟨w'', dx, hsol, hn, -⟩ := hw r dx0
  obtain ⟨e1, e2⟩ := newton_descent hy hsm hr ((hn _ _ _).2 ⟨rfl, rfl, rfl⟩)
  exact ⟨w', w'', dx, hi, hsol, e1, e2⟩

end Fbstab
