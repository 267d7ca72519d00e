import Verif.Spec.Special
import Verif.Proofs.CoreFacts
import Verif.Proofs.Loops

/-!
# How NaN spreads through the computations
-/

namespace Fbstab

namespace XReal

@[simp] theorem add_nan' (a : XReal) : a + nan = nan := by cases a <;> rfl
@[simp] theorem nan_add' (a : XReal) : nan + a = nan := by cases a <;> rfl
@[simp] theorem mul_nan' (a : XReal) : a * nan = nan := by cases a <;> rfl
@[simp] theorem nan_mul' (a : XReal) : nan * a = nan := by cases a <;> rfl
@[simp] theorem neg_nan' : -nan = nan := rfl
@[simp] theorem sub_nan' (a : XReal) : a - nan = nan := by cases a <;> rfl
@[simp] theorem nan_sub' (a : XReal) : nan - a = nan := by
  show nan + XReal.neg a = nan
  exact nan_add' _
@[simp] theorem div_nan' (a : XReal) : a / nan = nan := by cases a <;> rfl
@[simp] theorem nan_div' (a : XReal) : nan / a = nan := by cases a <;> rfl
@[simp] theorem sqrt_nan' : Scalar.sqrt nan = nan := rfl
@[simp] theorem cmax_nan (a : XReal) : cmax nan a = nan := by
  unfold cmax; rw [if_neg nan_lt]
@[simp] theorem cabs_nan : cabs nan = nan := by
  unfold cabs; rw [if_neg nan_lt]

end XReal

/-- Some entry is NaN. -/
def Vec.HasNaN {n : Nat} (x : Vec XReal n) : Prop := ∃ i, x i = .nan

/-- Some entry of `z`, `l` or `v` is NaN. -/
def Point.HasNaN {nz nl nv : Nat} (p : Point XReal nz nl nv) : Prop :=
  p.z.HasNaN ∨ p.l.HasNaN ∨ p.v.HasNaN

theorem sumFin_nan {n : Nat} {f : Fin n → XReal} (i : Fin n) (h : f i = .nan) :
    sumFin n f = .nan := by
  unfold sumFin
  have := forFin_induct (n := n) (f := fun i (s : XReal) => s + f i) (s := 0)
    (P := fun t s => i.1 < t → s = .nan) (fun h => absurd h (Nat.not_lt_zero _)) ?_
  · exact this i.2
  · intro k s hs hk
    by_cases e : k = i
    · subst e; rw [h]; exact XReal.add_nan' _
    · rw [hs (by have : k.1 ≠ i.1 := fun h => e (Fin.ext h); omega)]; exact XReal.nan_add' _

theorem dotFin_nan {n : Nat} {x y : Fin n → XReal} (i : Fin n) (h : x i * y i = .nan) : dotFin n x y = .nan := by
  rw [XReal.dotFin_eq]
  exact sumFin_nan i h

theorem Vec.HasNaN.squaredNorm {n : Nat} {x : Vec XReal n} (h : x.HasNaN) : x.squaredNorm = .nan := by
  obtain ⟨i, h⟩ := h
  exact dotFin_nan i (by rw [h]; rfl)

theorem Vec.HasNaN.norm {n : Nat} {x : Vec XReal n} (h : x.HasNaN) : x.norm = .nan := by
  rw [Vec.norm, h.squaredNorm]; rfl

theorem mulVec_nan_right {r c : Nat} (m : Mat XReal r c) {x : Vec XReal c} (h : x.HasNaN) (i : Fin r) :
    (m * x) i = .nan := by
  obtain ⟨j, h⟩ := h
  rw [Mat.get_mulVec]
  exact dotFin_nan j (by rw [h]; exact XReal.mul_nan' _)

theorem mulVec_nan_left {r c : Nat} {m : Mat XReal r c} {i : Fin r} {j : Fin c} (h : m i j = .nan)
    (x : Vec XReal c) : (m * x) i = .nan := by
  rw [Mat.get_mulVec]
  exact dotFin_nan j (by rw [h]; exact XReal.nan_mul' _)

theorem norm3_nan {nz nl nv : Nat} {z : Vec XReal nz} {l : Vec XReal nl} {v : Vec XReal nv}
    (h : z.HasNaN ∨ l.HasNaN ∨ v.HasNaN) : norm3 z l v = .nan := by
  unfold norm3
  rcases h with h | h | h <;> simp [h.norm]

namespace Core
variable {nz nl nv : Nat}

theorem normPt_nan {x : Point XReal nz nl nv} (h : x.HasNaN) : normPt x = .nan := norm3_nan h

theorem axpy_nan (E : Env XReal nz nl nv) (a : XReal) {x this : Point XReal nz nl nv}
    (h : x.HasNaN ∨ this.HasNaN) : (E.axpy a x this).HasNaN := by
  rcases h with (⟨i, h⟩ | ⟨i, h⟩ | ⟨i, h⟩) | (⟨i, h⟩ | ⟨i, h⟩ | ⟨i, h⟩)
  · exact .inl ⟨i, by simp [Env.axpy, h]⟩
  · exact .inr (.inl ⟨i, by simp [Env.axpy, h]⟩)
  · exact .inr (.inr ⟨i, by simp [Env.axpy, h]⟩)
  · exact .inl ⟨i, by simp [Env.axpy, h]⟩
  · exact .inr (.inl ⟨i, by simp [Env.axpy, h]⟩)
  · exact .inr (.inr ⟨i, by simp [Env.axpy, h]⟩)

theorem projectDuals_nan {x : Point XReal nz nl nv} (h : x.HasNaN) : (projectDuals x).HasNaN := by
  rcases h with h | h | ⟨i, h⟩
  · exact .inl h
  · exact .inr (.inl h)
  · exact .inr (.inr ⟨i, by simp [projectDuals, Vec.cwiseMax, h]⟩)

/-- NaN, once in the iterate, stays there. -/
theorem innerLoop_nan (E : Env XReal nz nl nv) {tol sigma Ek : XReal} {xbar : Point XReal nz nl nv}
    {fuel i : Nat} {t Eo : XReal} {x : Point XReal nz nl nv} {newton : Nat} {buf : Vec XReal 5}
    {rk : Resid XReal nz nl nv} {o : InnerOut XReal nz nl nv} (hx : x.HasNaN)
    (h : (innerLoop E tol sigma Ek xbar fuel i t Eo x newton buf rk).2 = .ok o) : o.x.HasNaN :=
  innerLoop_invariant E tol sigma Ek xbar Point.HasNaN (fun x x' hx => by
    rintro ⟨g, r, t, -, rfl⟩
    exact axpy_nan E t (.inr hx)) fuel i t Eo x newton buf rk o hx h

/-- The Newton step at `x` brings NaN into the iterate. -/
structure Poisoned (E : Env XReal nz nl nv) (xk : Point XReal nz nl nv) : Prop where
  inner : Resid.norm (E.innerRes xk xk E.opts.sigma0) = .nan
  step : ∀ g, E.factor xk xk E.opts.sigma0 = .ok (some g) →
    (g (Resid.negate (E.innerRes xk xk E.opts.sigma0))).HasNaN

theorem Inner.nan {E : Env XReal nz nl nv} {s : Outer XReal nz nl nv} {tol : XReal}
    {o : InnerOut XReal nz nl nv} (h : Inner E s tol o)
    (hs : s.xk.HasNaN ∨ (Poisoned E s.xk ∧ 1 ≤ E.opts.maxInnerIters ∧
      ¬E.opts.maxNewtonIters ≤ (s.newton : Int))) : o.x.HasNaN := by
  obtain ⟨o', h', rfl⟩ := subproblem_ok h.sub
  refine projectDuals_nan ?_
  rcases hs with hs | ⟨hp, hm, hn⟩
  · exact innerLoop_nan E hs h'
  · obtain ⟨f, hf⟩ : ∃ f, E.opts.maxInnerIters.toNat = f + 1 := ⟨E.opts.maxInnerIters.toNat - 1, by omega⟩
    rw [hf] at h'
    simp only [innerLoop, hp.inner] at h'
    rw [if_neg (by rintro (⟨h, -⟩ | h) <;> exact XReal.nan_le h), if_neg hn] at h'
    split at h'
    · cases h'
    · cases h'
    · rename_i g hg
      exact innerLoop_nan E (axpy_nan E _ (.inl (hp.step g hg))) h'

/-- A run that starts with NaN, or that NaN enters in the first Newton step, does not end with
SUCCESS. -/
theorem Returned.nan {E : Env XReal nz nl nv} {ws : FeasWs XReal nz nl nv} {x : Point XReal nz nl nv}
    {fin : Final XReal nz nl nv} (h : Returned E ws x fin)
    (hones : ¬normPt (onesPt E) ≤ E.opts.stallTol)
    (hpen : ∀ x : Point XReal nz nl nv, x.HasNaN → Resid.norm (E.penRes x) = .nan)
    (hx : x.HasNaN ∨ (¬Resid.norm (E.penRes x) ≤ E.comboTol ∧ Poisoned E x ∧
      1 ≤ E.opts.maxInnerIters ∧ 1 ≤ E.opts.maxNewtonIters)) : fin.out.eflag ≠ .success := by
  obtain ⟨tol, k, s, -, hs, hr⟩ := h.run
  have inv : (k = 0 ∧ s = start E ws x tol) ∨ (s.xk.HasNaN ∧ s.dx.HasNaN) := by
    clear hr
    induction k generalizing s with
    | zero => cases hs; exact .inl ⟨rfl, rfl⟩
    | succ k ih =>
      cases hs with
      | tail h1 h2 =>
        have ho : _ := h2.toInner.nan (by
          rcases ih _ h1 with ⟨-, rfl⟩ | ⟨h, -⟩
          · rcases hx with hx | ⟨-, h3, h4, h5⟩
            · exact .inl hx
            · refine .inr ⟨h3, h4, ?_⟩
              show ¬E.opts.maxNewtonIters ≤ ((0 : Nat) : Int)
              omega
          · exact .inl h)
        rw [h2.eq]
        exact .inr ⟨ho, axpy_nan E _ (.inr ho)⟩
  have nostop : ¬Stop E s := by
    rintro (h1 | h1)
    · rcases inv with ⟨-, rfl⟩ | ⟨h2, -⟩
      · rcases hx with hx | ⟨h3, -⟩
        · exact XReal.nan_le (by rw [← hpen _ hx]; exact h1)
        · exact h3 h1
      · exact XReal.nan_le (by rw [← hpen _ h2]; exact h1)
    · rcases inv with ⟨-, rfl⟩ | ⟨-, h2⟩
      · exact hones h1
      · exact XReal.nan_le (by rw [← normPt_nan h2]; exact h1)
  rcases hr with ⟨-, hx⟩ | ⟨-, rfl⟩
  · cases hx with
    | success h' => exact absurd h' nostop
    | newton => intro h; cases h
    | infeasible _ _ _ hf => exact (flagOf_ne_success _).2 hf
  · intro h; cases h

end Core
end Fbstab
