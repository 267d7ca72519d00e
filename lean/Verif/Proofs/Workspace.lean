import Verif.Proofs.ApiSem

/-!
# The feasibility checker's workspaces do not matter

if multiplication by `b = 0.0` clears them.
-/

namespace Fbstab
variable {K : Type} [Scalar K] {nz nl nv : Nat}

/-- `gemv` with `a = 1.0`, `b = 0.0` does not depend on the old value of `y`. -/
structure QPOps.Clears (d : QPOps K nz nl nv) : Prop where
  A : ∀ x y y', d.gemvA x 1 0 y = d.gemvA x 1 0 y'
  G : ∀ x y y', d.gemvG x 1 0 y = d.gemvG x 1 0 y'
  H : ∀ x y y', d.gemvH x 1 0 y = d.gemvH x 1 0 y'

theorem scaleBy_zero (h0 : ((0 : K) == 0) = true) {n : Nat} (y : Vec K n) :
    scaleBy 0 y = Vec.const 0 := by
  simp [scaleBy, h0]

theorem MpcData.clears (h0 : ((0 : K) == 0) = true) {N nx nu nc : Nat}
    (d : MpcData K N nx nu nc) : d.ops.Clears where
  A x y y' := by simp only [ops, gemvA, scaleBy_zero h0]
  G x y y' := by simp only [ops, gemvG, scaleBy_zero h0]
  H x y y' := by simp only [ops, gemvH, scaleBy_zero h0]

theorem DenseData.clears (h : ∀ a b : K, 0 * a = 0 * b) (d : DenseData K nz nl nv) :
    d.ops.Clears := by
  have : ∀ {n} (y y' : Vec K n), (0 : K) * y = (0 : K) * y' := by
    intro n y y'; ext i; simp [h (y i) (y' i)]
  exact ⟨fun x y y' => by simp only [ops, gemvA, this y y'],
    fun x y y' => by simp only [ops, gemvG, this y y'],
    fun x y y' => by simp only [ops, gemvH, this y y']⟩

theorem checkFeasibility_ws {d : QPOps K nz nl nv} (h : d.Clears) (x : Point K nz nl nv) (tol : K)
    (ws ws' : FeasWs K nz nl nv) : checkFeasibility d x tol ws = checkFeasibility d x tol ws' := by
  simp only [checkFeasibility, h.A x.z ws.tv ws'.tv, h.G x.z ws.tl ws'.tl, h.H x.z ws.tz ws'.tz]

namespace Core

theorem proxLoop_ws {E : Env K nz nl nv} (h : E.opts.checkFeasibility = true → E.ops.Clears) (E0 : K) (fuel : Nat) :
    ∀ (s : Outer K nz nl nv) (ws : FeasWs K nz nl nv),
      proxLoop E E0 fuel { s with ws := ws } = proxLoop E E0 fuel s := by
  induction fuel with
  | zero => intro s ws; rfl
  | succ fuel ih =>
    intro s ws
    have key : ∀ tol o, afterInner E E0 (Resid.norm (E.penRes s.xk)) tol { s with ws := ws } o =
        match afterInner E E0 (Resid.norm (E.penRes s.xk)) tol s o with
        | .inl a => .inl a
        | .inr s' => .inr { s' with ws := if E.opts.checkFeasibility then s'.ws else ws } := by
      intro tol o
      by_cases hn : E.opts.maxNewtonIters ≤ (o.newton : Int)
      · simp only [afterInner, if_pos hn]
      · simp only [afterInner, if_neg hn]
        cases hc : E.opts.checkFeasibility
        · simp
        · simp only [if_true, checkFeasibility_ws (h hc) _ _ ws s.ws]
          split <;> simp_all
    simp only [proxLoop, key]
    split
    · rfl
    · split
      · rfl
      · split
        · rfl
        · generalize afterInner E E0 _ _ s _ = a
          rcases a with ⟨ev, fin⟩ | s'
          · rfl
          · dsimp only
            rw [ih]

theorem solve_ws' {E : Env K nz nl nv} (h : E.opts.checkFeasibility = true → E.ops.Clears) (ws ws' : FeasWs K nz nl nv) (z : Vec K nz)
    (l : Vec K nl) (v : Vec K nv) : solve E ws z l v = solve E ws' z l v := by
  simp only [solve]
  split
  · rfl
  · rw [← proxLoop_ws h _ _ _ ws']

theorem solve_ws {E : Env K nz nl nv} (h : E.ops.Clears) (ws ws' : FeasWs K nz nl nv) (z : Vec K nz)
    (l : Vec K nl) (v : Vec K nv) : solve E ws z l v = solve E ws' z l v :=
  solve_ws' (fun _ => h) ws ws' z l v

end Core
end Fbstab
