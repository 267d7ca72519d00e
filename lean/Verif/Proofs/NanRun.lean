import Verif.Proofs.Stuck
import Verif.Proofs.UpMpc
import Verif.Props.Options
import Verif.Props.Finite
import Verif.Proofs.NoThrow

/-!
# Runs that return although NaN is about
-/

namespace Fbstab

theorem bind_up {α β γ δ : Type} (u : α → γ) (w : β → δ) {e : Except Err α} {f : α → Except Err β}
    {f' : γ → Except Err δ} (h : ∀ a, f' (u a) = (f a).map w) :
    (e.map u >>= f') = (e >>= f).map w := by
  cases e with
  | error e => rfl
  | ok a => exact h a

theorem Params.up_validate (o : Params ℝ) : o.up.validate = o.validate.map Params.up := by
  unfold Params.validate
  simp only [Params.up, up_ofScientific, up_cmax, up_saturate, up_zero]
  refine bind_up Fbstab.up _ fun a => ?_
  refine bind_up Fbstab.up _ fun b => ?_
  simp only [up_saturate]
  repeat refine bind_up Fbstab.up _ fun _ => ?_
  rfl

namespace Core
variable {nz nl nv : Nat}

/-- One proximal iteration with one Newton step returns if the first factorisation succeeds. -/
theorem solve_one_ok (E : Env XReal nz nl nv) {ws : FeasWs XReal nz nl nv} {z : Vec XReal nz}
    {l : Vec XReal nl} {v : Vec XReal nv} (hpen : Resid.norm (E.penRes (startPt E z l v)) = .nan)
    (hf : ∃ g, E.factor (startPt E z l v) (startPt E z l v) E.opts.sigma0 = .ok (some g))
    (hsat : ¬E.opts.innerTolMax < E.opts.innerTolMin) (hp : E.opts.maxProxIters = 1)
    (hi : E.opts.maxInnerIters = 1) : ∃ fin, (solve E ws z l v).2 = .ok fin := by
  simp only [solve]
  obtain ⟨tol, htol⟩ := saturate_nan_ok (x := Resid.norm (E.penRes (startPt E z l v))) hsat
  rw [htol]
  dsimp only
  rw [hp]
  show ∃ fin, (proxLoop E _ (0 + 1) _).2 = .ok fin
  simp only [proxLoop, hpen]
  split
  · exact ⟨_, rfl⟩
  · obtain ⟨tol2, htol2⟩ := saturate_nan_ok (x := tol * E.opts.delta) (a := E.opts.innerTolMin) (b := .nan)
      XReal.nan_lt
    rw [htol2]
    dsimp only
    obtain ⟨o, es⟩ : ∃ o, (subproblem E tol2 .nan (startPt E z l v) 0 (E.penRes (startPt E z l v))).2 = .ok o := by
      simp only [subproblem]
      have : ∃ o, (innerLoop E tol2 E.opts.sigma0 XReal.nan (startPt E z l v) E.opts.maxInnerIters.toNat 0 1 0
          (startPt E z l v) 0 (Vec.const 0) (E.penRes (startPt E z l v))).2 = .ok o := by
        rw [hi]
        show ∃ o, (innerLoop E _ _ _ _ (0 + 1) _ _ _ _ _ _ _).2 = .ok o
        simp only [innerLoop]
        split
        · exact ⟨_, rfl⟩
        · split
          · exact ⟨_, rfl⟩
          · obtain ⟨g, hg⟩ := hf
            rw [hg]
            exact ⟨_, rfl⟩
      obtain ⟨o, h⟩ := this
      rw [h]
      exact ⟨_, rfl⟩
    rw [es]
    dsimp only
    split
    · exact ⟨_, rfl⟩
    · exact ⟨_, rfl⟩

/-- If every factorisation succeeds and the residual is always NaN, the call returns. -/
theorem solve_total_nan (E : Env XReal nz nl nv) {ws : FeasWs XReal nz nl nv} {z : Vec XReal nz}
    {l : Vec XReal nl} {v : Vec XReal nv}
    (hf : ∀ x xbar, ∃ g, E.factor x xbar E.opts.sigma0 = .ok (some g))
    (hsat : ¬E.opts.innerTolMax < E.opts.innerTolMin) (P : Point XReal nz nl nv → Prop)
    (h0 : P (startPt E z l v)) (hP : ∀ x, P x → Resid.norm (E.penRes x) = .nan)
    (hstep : ∀ s tol o, P s.xk → Inner E s tol o → P o.x) : ∃ fin, (solve E ws z l v).2 = .ok fin := by
  cases h : (solve E ws z l v).2 with
  | ok fin => exact ⟨fin, rfl⟩
  | error e =>
    exfalso
    rcases solve_threw h with h | ⟨tol, k, s, -, hs, ht⟩
    · obtain ⟨y, hy⟩ := saturate_nan_ok (x := Resid.norm (E.penRes (startPt E z l v))) hsat
      rw [hy] at h
      cases h
    · have hPs : P s.xk := hs.invariant (P := fun s => P s.xk) (fun s s' tol o h1 h2 => by
        rw [h2.eq]
        exact hstep _ _ _ h1 h2.toInner) h0
      cases ht with
      | tol _ ht =>
        rw [hP _ hPs] at ht
        obtain ⟨y, hy⟩ := saturate_nan_ok (x := s.innerTol * E.opts.delta) (a := E.opts.innerTolMin) (b := .nan)
          XReal.nan_lt
        rw [hy] at ht
        cases ht
      | inner _ _ hs =>
        simp only [subproblem] at hs
        obtain ⟨o, ho⟩ := innerLoop_total hf _ (Resid.norm (E.penRes s.xk)) s.xk E.opts.maxInnerIters.toNat 0 1 0 s.xk s.newton
          (Vec.const 0) (E.penRes s.xk)
        rw [ho] at hs
        cases hs

end Core

/-! ## The Riccati factorisation does not read the linear part of the data -/

namespace RiccatiWs
variable {N nx nu nc : Nat} {K : Type} [Scalar K]

def setData (e : Option (MpcData K N nx nu nc)) (w : RiccatiWs K N nx nu nc) : RiccatiWs K N nx nu nc :=
  { w with data := e }

theorem factorStage_setData (e : Option (MpcData K N nx nu nc)) (A : Option (Mat K nx nx)) (i : Fin (N + 1))
    (w : RiccatiWs K N nx nu nc) :
    factorStage A i (setData e w) = ((factorStage A i w).1, setData e (factorStage A i w).2) := by
  unfold factorStage setData
  dsimp only
  split
  · rfl
  · cases A <;> rfl

theorem factorStep_setData (e : Option (MpcData K N nx nu nc)) (d : MpcData K N nx nu nc) (sigma : K)
    (i : Fin N) (s : Bool × RiccatiWs K N nx nu nc) :
    factorStep d sigma i (s.1, setData e s.2) =
      ((factorStep d sigma i s).1, setData e (factorStep d sigma i s).2) := by
  unfold factorStep
  rcases s with ⟨b, w⟩
  cases b
  · rfl
  · simp only [Bool.not_true, Bool.false_eq_true, if_false, factorStage_setData]
    split
    · rfl
    · rfl

theorem initPair_setData (e : Option (MpcData K N nx nu nc)) (d : MpcData K N nx nu nc)
    (x xbar : Point K ((N + 1) * (nx + nu)) ((N + 1) * nx) ((N + 1) * nc)) (sigma : K)
    (w : RiccatiWs K N nx nu nc) :
    (initPair d x xbar sigma (setData e w)).1 = (initPair d x xbar sigma w).1 := by
  unfold initPair
  have e1 : barrier x xbar sigma (setData e w) = setData e (barrier x xbar sigma w) := rfl
  have e2 := forFin_up (setData e) (augment d sigma) (augment d sigma) (fun i s => rfl)
    (barrier x xbar sigma w)
  rw [e1, e2]
  dsimp only
  have e3 := forFin_up (fun s : Bool × RiccatiWs K N nx nu nc => (s.1, setData e s.2)) (factorStep d sigma)
    (factorStep d sigma) (fun i s => factorStep_setData e d sigma i s)
    (true, { forFin (N + 1) (augment d sigma) (barrier x xbar sigma w) with
      L := (forFin (N + 1) (augment d sigma) (barrier x xbar sigma w)).L.set 0
        (Scalar.sqrt sigma * (Mat.identity : Mat K nx nx)) })
  dsimp only at e3
  rw [show ((true, { setData e (forFin (N + 1) (augment d sigma) (barrier x xbar sigma w)) with
      L := (setData e (forFin (N + 1) (augment d sigma) (barrier x xbar sigma w))).L.set 0
        (Scalar.sqrt sigma * (Mat.identity : Mat K nx nx)) }) : Bool × RiccatiWs K N nx nu nc) = _ from rfl]
  rw [show forFin N (factorStep d sigma) ((true, { setData e (forFin (N + 1) (augment d sigma) (barrier x xbar sigma w)) with
      L := (setData e (forFin (N + 1) (augment d sigma) (barrier x xbar sigma w))).L.set 0
        (Scalar.sqrt sigma * (Mat.identity : Mat K nx nx)) }) : Bool × RiccatiWs K N nx nu nc) = _ from e3]
  dsimp only
  split
  · rfl
  · rw [factorStage_setData]

end RiccatiWs
end Fbstab
