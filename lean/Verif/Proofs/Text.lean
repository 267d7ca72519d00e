import Verif.Spec.Text
import Verif.Proofs.ApiSem
import Verif.Proofs.Binary64
import Verif.Proofs.CoreFacts
import Mathlib.Data.Nat.Digits.Defs
import Mathlib.Tactic.NormNum
import Mathlib.Tactic.FieldSimp
import Mathlib.Tactic.Ring

/-!
# Lengths of the printed messages
-/

namespace Fbstab

theorem padLeft_length (n : Nat) (s : String) : (padLeft n s).length = max n s.length := by
  simp only [padLeft, String.length_append, String.length_ofList, List.length_replicate]
  omega

theorem snprintf_eq {n : Nat} {s : String} (h : s.length < n) : snprintf n s = s := by
  unfold snprintf
  rw [List.take_of_length_le (by rw [String.length_toList]; omega), String.ofList_toList]

theorem nat_text {n : Nat} (h : (n : Int) ≤ 2 ^ 31) : (toString n).length ≤ 10 :=
  Nat.repr_length n 10 (by norm_num) (by norm_num at h ⊢; omega)

theorem padLeft_le {n k : Nat} {s : String} (h : s.length ≤ k) (hn : n ≤ k) : (padLeft n s).length ≤ k := by
  rw [padLeft_length]; omega

theorem int_text {n : Int} (h : IsInt n) : (toString n).length ≤ 11 := by
  obtain ⟨h1, h2⟩ := h
  cases n with
  | ofNat k => exact le_trans (nat_text h2.le) (by norm_num)
  | negSucc k =>
    have e : toString (Int.negSucc k) = "-" ++ toString (k + 1) := rfl
    have := nat_text (n := k + 1) (by rw [Int.negSucc_eq] at h1; push_cast; linarith)
    rw [e, String.length_append]
    have : "-".length = 1 := by decide
    omega

/-! ### Scientific notation -/

theorem pointed_length {l : List Char} : (pointed l).length = l.length + 1 := by
  simp only [pointed, List.length_append, List.length_cons, List.length_take, List.length_drop]
  omega

theorem exponentText_length {e : ℤ} (h : e.natAbs < 1000) : (exponentText e).length ≤ 5 := by
  simp only [exponentText, List.length_append, List.length_cons]
  split
  · have := Nat.toDigits_length 10 e.natAbs 1 (by norm_num) (by omega)
    simp only [List.length_cons, List.length_nil]
    omega
  · have := Nat.toDigits_length 10 e.natAbs 3 (by norm_num) (by omega)
    simp only [List.length_nil]
    omega

/-- The rounded mantissa has `p + 1` digits and is the number, up to half a unit in the last digit. -/
theorem sciParts_spec (p : Nat) {r : ℝ} (hr : 0 < r) :
    10 ^ p ≤ (sciParts p r).1 ∧ (sciParts p r).1 < 10 ^ (p + 1) ∧
      |(sciParts p r).1 * (10 : ℝ) ^ ((sciParts p r).2 - p) - r| ≤ 1 / 2 * (10 : ℝ) ^ (Int.log 10 r - p) ∧
      ((sciParts p r).2 = Int.log 10 r ∨ (sciParts p r).2 = Int.log 10 r + 1) := by
  have ten : (0 : ℝ) < 10 := by norm_num
  set e := Int.log 10 r with he
  have l1 : (10 : ℝ) ^ e ≤ r := by
    have := Int.zpow_log_le_self (b := 10) (by norm_num) hr
    exact_mod_cast this
  have l2 : r < (10 : ℝ) ^ (e + 1) := by
    have := Int.lt_zpow_succ_log_self (b := 10) (by norm_num) r
    exact_mod_cast this
  set u := (10 : ℝ) ^ (e - p) with hu
  have u0 : 0 < u := zpow_pos ten _
  have e1 : (10 : ℝ) ^ e = 10 ^ p * u := by
    rw [hu, ← zpow_natCast, ← zpow_add₀ ten.ne']; congr 1; ring
  have e2 : (10 : ℝ) ^ (e + 1) = 10 ^ (p + 1) * u := by
    rw [hu, ← zpow_natCast, ← zpow_add₀ ten.ne']; congr 1; push_cast; ring
  have q1 : (10 : ℝ) ^ p ≤ r / u := by rw [le_div_iff₀ u0, ← e1]; exact l1
  have q2 : r / u < (10 : ℝ) ^ (p + 1) := by rw [div_lt_iff₀ u0, ← e2]; exact l2
  have n := nearestEven_abs (r / u)
  set m := nearestEven (r / u) with hm
  have n1 : (10 : ℤ) ^ p ≤ m := by
    have h1 : ((10 : ℤ) ^ p : ℤ) - 1 < (m : ℤ) := by
      have : ((10 : ℝ) ^ p) - 1 < m := by
        have := (abs_le.1 n).1
        linarith
      exact_mod_cast this
    omega
  have n2 : m ≤ (10 : ℤ) ^ (p + 1) := by
    have h1 : (m : ℤ) < (10 : ℤ) ^ (p + 1) + 1 := by
      have : (m : ℝ) < (10 : ℝ) ^ (p + 1) + 1 := by
        have := (abs_le.1 n).2
        linarith
      exact_mod_cast this
    omega
  have close : |(m : ℝ) * u - r| ≤ 1 / 2 * u := by
    have : (m : ℝ) * u - r = (m - r / u) * u := by field_simp
    rw [this, abs_mul, abs_of_pos u0]
    exact mul_le_mul_of_nonneg_right n u0.le
  have hp : sciParts p r = if m = 10 ^ (p + 1) then (10 ^ p, e + 1) else (m.toNat, e) := rfl
  rw [hp]
  split
  · rename_i hm'
    refine ⟨le_rfl, Nat.pow_lt_pow_right (by norm_num) (by omega), ?_, .inr rfl⟩
    have : (((10 : ℕ) ^ p : ℕ) : ℝ) * (10 : ℝ) ^ (e + 1 - p) = (m : ℝ) * u := by
      rw [hm', hu]
      push_cast
      rw [← zpow_natCast, ← zpow_natCast, ← zpow_add₀ ten.ne', ← zpow_add₀ ten.ne']
      congr 1
      push_cast
      ring
    dsimp only
    rw [this]
    exact close
  · rename_i hm'
    have m0 : 0 ≤ m := le_trans (by positivity) n1
    have mc : ((m.toNat : ℕ) : ℤ) = m := Int.toNat_of_nonneg m0
    refine ⟨?_, ?_, ?_, .inl rfl⟩
    · have : ((10 ^ p : ℕ) : ℤ) ≤ ((m.toNat : ℕ) : ℤ) := by rw [mc]; push_cast; exact n1
      exact_mod_cast this
    · have : ((m.toNat : ℕ) : ℤ) < ((10 ^ (p + 1) : ℕ) : ℤ) := by
        rw [mc]; push_cast; exact lt_of_le_of_ne n2 hm'
      exact_mod_cast this
    · dsimp only
      have : ((m.toNat : ℕ) : ℝ) = (m : ℝ) := by exact_mod_cast mc
      rw [this]
      exact close

theorem representable_log {r : ℝ} (h : Representable r) (h0 : r ≠ 0) :
    -324 ≤ Int.log 10 |r| ∧ Int.log 10 |r| ≤ 308 := by
  obtain ⟨m, e, h1, h2, h3, h4⟩ := h
  have hr : 0 < |r| := abs_pos.2 h0
  have hm : m ≠ 0 := by
    rintro rfl
    apply h0
    rw [h3]
    simp
  have m1 : (1 : ℝ) ≤ |(m : ℝ)| := by
    have : (1 : ℤ) ≤ |m| := Int.one_le_abs hm
    exact_mod_cast this
  have low : (2 : ℝ) ^ (-1074 : ℤ) ≤ |r| := by
    rw [h3, abs_mul, abs_of_pos (zpow_pos (by norm_num : (0 : ℝ) < 2) e)]
    calc (2 : ℝ) ^ (-1074 : ℤ) ≤ (2 : ℝ) ^ e := zpow_le_zpow_right₀ (by norm_num) h2
      _ = 1 * (2 : ℝ) ^ e := (one_mul _).symm
      _ ≤ _ := mul_le_mul_of_nonneg_right m1 (zpow_pos (by norm_num) e).le
  constructor
  · rw [← Int.zpow_le_iff_le_log (by norm_num) hr]
    refine le_trans ?_ low
    have k : (2 : ℝ) ^ (1074 : ℕ) ≤ (10 : ℝ) ^ (324 : ℕ) := by
      have : (2 : ℕ) ^ (1074 : ℕ) ≤ (10 : ℕ) ^ (324 : ℕ) := by decide +kernel
      exact_mod_cast this
    rw [zpow_neg, zpow_neg]
    push_cast
    have := inv_anti₀ (by positivity) k
    exact_mod_cast this
  · have : Int.log 10 |r| < 309 := by
      rw [← Int.lt_zpow_iff_log_lt (by norm_num) hr]
      refine lt_of_lt_of_le h4 ?_
      have : (2 : ℕ) ^ (1024 : ℕ) ≤ (10 : ℕ) ^ (309 : ℕ) := by decide +kernel
      exact_mod_cast this
    omega

theorem sciReal_length (p : Nat) {r : ℝ} (h : Representable r) : (sciReal p r).length ≤ p + 8 := by
  rw [sciReal, String.length_ofList]
  split
  · rw [List.length_append, pointed_length, List.length_replicate]
    have := exponentText_length (e := 0) (by norm_num)
    omega
  · rename_i h0
    have hr : 0 < |r| := abs_pos.2 h0
    obtain ⟨-, h2, -, h4⟩ := sciParts_spec p hr
    obtain ⟨l1, l2⟩ := representable_log h h0
    have d := Nat.toDigits_length 10 _ (p + 1) (by omega) h2
    have e := exponentText_length (e := (sciParts p |r|).2) (by omega)
    rw [List.length_append, List.length_append, pointed_length]
    have : (if r < 0 then ['-'] else []).length ≤ 1 := by split <;> simp
    omega

theorem sciText_length (p : Nat) (a : Binary64) : (sciText p a).length ≤ p + 8 := by
  unfold sciText
  split
  · rename_i r hr
    exact sciReal_length p (a.rep r (Binary64.toReal_eq.1 hr))
  · split
    · exact le_trans (by decide : "nan".length ≤ 8) (by omega)
    · split
      · exact le_trans (by decide : "inf".length ≤ 8) (by omega)
      · exact le_trans (by decide : "-inf".length ≤ 8) (by omega)


/-! ### The counts in the log -/

namespace Core
variable {K : Type} [Scalar K] {nz nl nv : Nat}

/-- The counts in an event are within the limits. -/
def Event.Within (o : Params K) : Event K nz nl nv → Prop
  | .outerDetailed p n _ => p ≤ o.maxProxIters.toNat ∧ n ≤ o.maxNewtonIters.toNat
  | .outer p n _ _ => p ≤ o.maxProxIters.toNat ∧ n ≤ o.maxNewtonIters.toNat
  | .inner i _ _ => i ≤ o.maxInnerIters.toNat
  | .final _ p n _ => p ≤ o.maxProxIters.toNat ∧ n ≤ o.maxNewtonIters.toNat
  | _ => True

theorem lineSearch_within (E : Env K nz nl nv) (sigma m0 cm : K) (x xbar dx : Point K nz nl nv)
    (n : Nat) : ∀ t, ∀ e ∈ (lineSearch E sigma m0 cm x xbar dx n t).2, e.Within E.opts := by
  induction n with
  | zero => intro t e h; cases h
  | succ n ih =>
    intro t e
    rw [lineSearch]
    dsimp only
    split
    · intro h
      rw [List.mem_singleton] at h
      rw [h]
      trivial
    · intro h
      rcases List.mem_cons.1 h with h | h
      · rw [h]; trivial
      · exact ih _ e h

theorem innerLoop_within (E : Env K nz nl nv) (tol sigma Ek : K) (xbar : Point K nz nl nv) (fuel : Nat) :
    ∀ i t Eo x newton buf rk, i + fuel ≤ E.opts.maxInnerIters.toNat → newton ≤ E.opts.maxNewtonIters.toNat →
      (∀ e ∈ (innerLoop E tol sigma Ek xbar fuel i t Eo x newton buf rk).1, e.Within E.opts) ∧
      ∀ o, (innerLoop E tol sigma Ek xbar fuel i t Eo x newton buf rk).2 = .ok o →
        o.newton ≤ E.opts.maxNewtonIters.toNat := by
  induction fuel with
  | zero =>
    intro i t Eo x newton buf rk hi hn
    simp only [innerLoop]
    refine ⟨fun e h => (by cases h), ?_⟩
    intro o h
    cases h
    exact hn
  | succ fuel ih =>
    intro i t Eo x newton buf rk hi hn
    have hi' : i ≤ E.opts.maxInnerIters.toNat := by omega
    have one : ∀ {r : Resid K nz nl nv}, ∀ e ∈ [Event.inner i t r], e.Within E.opts := by
      intro r e he
      rw [List.mem_singleton] at he
      rw [he]
      exact hi'
    simp only [innerLoop]
    split
    · refine ⟨?_, fun o h => by cases h; exact hn⟩
      intro e he
      rcases List.mem_cons.1 he with rfl | he
      · exact hi'
      · rw [List.mem_singleton] at he
        rw [he]
        trivial
    · split
      · exact ⟨one, fun o h => by cases h; exact hn⟩
      · rename_i hlim
        split
        · exact ⟨one, fun o h => by cases h⟩
        · exact ⟨one, fun o h => by cases h⟩
        · rename_i g hg
          have key := ih (i + 1) (newtonStep E sigma xbar g x (E.innerRes x xbar sigma) buf).2.1
            (Resid.norm (E.penRes x)) (newtonStep E sigma xbar g x (E.innerRes x xbar sigma) buf).1 (newton + 1)
            (newtonStep E sigma xbar g x (E.innerRes x xbar sigma) buf).2.2.1 (E.penRes x) (by omega) (by omega)
          refine ⟨?_, key.2⟩
          intro e he
          rcases List.mem_cons.1 he with rfl | he
          · exact hi'
          · rcases List.mem_append.1 he with he | he
            · exact lineSearch_within E _ _ _ _ _ _ _ _ e he
            · exact key.1 e he

theorem afterInner_within (E : Env K nz nl nv) (E0 Ek tol : K) (s : Outer K nz nl nv) (o : InnerOut K nz nl nv)
    (hp : s.prox ≤ E.opts.maxProxIters.toNat) (hn : o.newton ≤ E.opts.maxNewtonIters.toNat) :
    match afterInner E E0 Ek tol s o with
    | .inl (ev, _) => ∀ e ∈ ev, e.Within E.opts
    | .inr s' => s'.prox = s.prox + 1 ∧ s'.newton = o.newton := by
  unfold afterInner
  dsimp only
  generalize (if E.opts.checkFeasibility = true then _ else _ : ExitFlag × FeasWs K nz nl nv) = f
  split
  · rename_i a b h
    split at h
    · cases h
      intro e he
      rw [List.mem_singleton] at he
      rw [he]
      exact ⟨hp, hn⟩
    · split at h
      · cases h
        intro e he
        rw [List.mem_singleton] at he
        rw [he]
        exact ⟨hp, hn⟩
      · cases h
  · rename_i a h
    split at h
    · cases h
    · split at h
      · cases h
      · cases h
        exact ⟨rfl, rfl⟩

theorem proxLoop_within (E : Env K nz nl nv) (E0 : K) (fuel : Nat) : ∀ s : Outer K nz nl nv,
    s.prox + fuel ≤ E.opts.maxProxIters.toNat → s.newton ≤ E.opts.maxNewtonIters.toNat →
    ∀ e ∈ (proxLoop E E0 fuel s).1, e.Within E.opts := by
  induction fuel with
  | zero =>
    intro s hp hn e he
    simp only [proxLoop, List.mem_singleton] at he
    rw [he]
    exact ⟨hp, hn⟩
  | succ fuel ih =>
    intro s hp hn
    have hp' : s.prox ≤ E.opts.maxProxIters.toNat := by omega
    have pre : ∀ e ∈ [Event.outerDetailed s.prox s.newton (E.penRes s.xk), .outer s.prox s.newton (E.penRes s.xk)
        s.innerTol], e.Within E.opts := by
      intro e he
      simp only [List.mem_cons, List.not_mem_nil, or_false] at he
      rcases he with rfl | rfl <;> exact ⟨hp', hn⟩
    simp only [proxLoop]
    split
    · intro e he
      simp only [List.mem_cons, List.not_mem_nil, or_false] at he
      rcases he with rfl | rfl <;> exact ⟨hp', hn⟩
    · split
      · exact pre
      · rename_i tol ht
        have sub : (∀ e ∈ (subproblem E tol (Resid.norm (E.penRes s.xk)) s.xk s.newton (E.penRes s.xk)).1,
            e.Within E.opts) ∧ ∀ o, (subproblem E tol (Resid.norm (E.penRes s.xk)) s.xk s.newton (E.penRes s.xk)).2 =
            .ok o → o.newton ≤ E.opts.maxNewtonIters.toNat := by
          have := innerLoop_within E tol E.opts.sigma0 (Resid.norm (E.penRes s.xk)) s.xk E.opts.maxInnerIters.toNat 0 1
            0 s.xk s.newton (Vec.const 0) (E.penRes s.xk) (by omega) hn
          refine ⟨this.1, ?_⟩
          intro o ho
          simp only [subproblem] at ho
          generalize innerLoop E tol E.opts.sigma0 (Resid.norm (E.penRes s.xk)) s.xk E.opts.maxInnerIters.toNat 0 1
            0 s.xk s.newton (Vec.const 0) (E.penRes s.xk) = q at this ho
          rcases q with ⟨es, _ | o'⟩
          · cases ho
          · cases ho
            exact this.2 o' rfl
        have both : ∀ {a b : List (Event K nz nl nv)}, (∀ e ∈ a, e.Within E.opts) → (∀ e ∈ b, e.Within E.opts) →
            ∀ e ∈ a ++ b, e.Within E.opts := by
          intro a b h1 h2 e he
          rcases List.mem_append.1 he with he | he
          · exact h1 e he
          · exact h2 e he
        split
        · exact both pre sub.1
        · rename_i o ho
          have after := afterInner_within E E0 (Resid.norm (E.penRes s.xk)) tol s o hp' (sub.2 o ho)
          generalize afterInner E E0 (Resid.norm (E.penRes s.xk)) tol s o = a at after
          rcases a with ⟨ev, fin⟩ | s'
          · exact both (both pre sub.1) after
          · exact both (both pre sub.1) (ih s' (by rw [after.1]; omega) (by rw [after.2]; exact sub.2 o ho))

theorem solve_within (E : Env K nz nl nv) (ws : FeasWs K nz nl nv) (z : Vec K nz) (l : Vec K nl) (v : Vec K nv) :
    ∀ e ∈ (solve E ws z l v).1, e.Within E.opts := by
  simp only [solve]
  split
  · intro e he; cases he
  · intro e he
    rcases List.mem_cons.1 he with rfl | he
    · trivial
    · exact proxLoop_within E _ _ _ (by simp) (by simp) e he

end Core

/-- The counts in a message are within the limits. -/
def Msg.Within {K : Type} (o : Params K) : Msg K → Prop
  | .iterLine p n _ _ _ _ _ => p ≤ o.maxProxIters.toNat ∧ n ≤ o.maxNewtonIters.toNat
  | .detailedHeader p n _ => p ≤ o.maxProxIters.toNat ∧ n ≤ o.maxNewtonIters.toNat
  | .detailedLine i _ _ _ _ => i ≤ o.maxInnerIters.toNat
  | .finalProx p k => p ≤ o.maxProxIters.toNat ∧ k = o.maxProxIters
  | .finalNewton n k => n ≤ o.maxNewtonIters.toNat ∧ k = o.maxNewtonIters
  | _ => True

theorem Core.render_within {K : Type} [Scalar K] {nz nl nv : Nat} (o : Params K) (c : K)
    (es : List (Core.Event K nz nl nv)) : (∀ e ∈ es, e.Within o) → ∀ ri, ∀ m ∈ Core.render o c ri es, m.Within o := by
  induction es with
  | nil => intro _ ri m hm; cases hm
  | cons e es ih =>
    intro h ri m hm
    have h0 := h e (List.mem_cons_self ..)
    have ih' := ih fun e he => h e (List.mem_cons_of_mem _ he)
    cases e <;> simp only [Core.render] at hm
    case trial => exact ih' _ m hm
    all_goals
      rcases List.mem_append.1 hm with hm | hm
      · split at hm
        · simp only [List.mem_cons, List.not_mem_nil, or_false] at hm
          first
            | (subst hm; exact h0)
            | (rcases hm with rfl | rfl <;> first | exact h0 | trivial)
            | (rcases hm with rfl | rfl | rfl | rfl | rfl | rfl | rfl | rfl <;>
                first | trivial | exact ⟨h0.1, rfl⟩ | exact ⟨h0.2, rfl⟩)
        · cases hm
      · exact ih' _ m hm

/-- The text of a number takes at most 12 characters with 4 digits after the point, at most 14 with 6. -/
structure NumText.Short {K : Type} (F : NumText K) : Prop where
  sci4 : ∀ a, (F.sci4 a).length ≤ 12
  sci6 : ∀ a, (F.sci6 a).length ≤ 14

theorem Binary64.numText_short : Binary64.numText.Short := ⟨sciText_length 4, sciText_length 6⟩

theorem IsInt.count {n : Nat} {k : Int} (h : IsInt k) (hn : n ≤ k.toNat) : (toString n).length ≤ 10 := by
  apply nat_text
  have := h.2
  omega

theorem line7_length {a b c d e f g : String} {k : Nat} (ha : a.length ≤ k) (hb : b.length ≤ k) (hc : c.length ≤ k)
    (hd : d.length ≤ k) (he : e.length ≤ k) (hf : f.length ≤ k) (hg : g.length ≤ k) :
    (a ++ "  " ++ b ++ "  " ++ c ++ "  " ++ d ++ "  " ++ e ++ "  " ++ f ++ "  " ++ g ++ "\n").length ≤ 7 * k + 13 := by
  simp only [String.length_append, show "  ".length = 2 by decide, show "\n".length = 1 by decide]
  omega

theorem line5_length {a b c d e : String} {k : Nat} (ha : a.length ≤ k) (hb : b.length ≤ k) (hc : c.length ≤ k)
    (hd : d.length ≤ k) (he : e.length ≤ k) :
    (a ++ "  " ++ b ++ "  " ++ c ++ "  " ++ d ++ "  " ++ e ++ "\n").length ≤ 5 * k + 9 := by
  simp only [String.length_append, show "  ".length = 2 by decide, show "\n".length = 1 by decide]
  omega

theorem line4_length {a b c d : String} {k : Nat} (ha : a.length ≤ k) (hb : b.length ≤ k) (hc : c.length ≤ k)
    (hd : d.length ≤ k) : (a ++ "  " ++ b ++ "  " ++ c ++ "  " ++ d ++ "\n").length ≤ 4 * k + 7 := by
  simp only [String.length_append, show "  ".length = 2 by decide, show "\n".length = 1 by decide]
  omega

theorem header_length {a b c : String} {k : Nat} (ha : a.length ≤ k) (hb : b.length ≤ k) (hc : c.length ≤ k) :
    ("Begin Prox Iter: " ++ a ++ ", Total Newton Iters: " ++ b ++ ", Residual: " ++ c ++ "\n").length ≤ 3 * k + 52 := by
  simp only [String.length_append, show "Begin Prox Iter: ".length = 17 by decide,
    show ", Total Newton Iters: ".length = 22 by decide, show ", Residual: ".length = 12 by decide,
    show "\n".length = 1 by decide]
  omega

theorem footer_length {a b : String} {k : Nat} (ha : a.length ≤ k) (hb : b.length ≤ k) :
    ("Exiting inner loop. Inner residual: " ++ a ++ ", Inner tolerance: " ++ b ++ "\n").length ≤ 2 * k + 56 := by
  simp only [String.length_append, show "Exiting inner loop. Inner residual: ".length = 36 by decide,
    show ", Inner tolerance: ".length = 19 by decide, show "\n".length = 1 by decide]
  omega

theorem time_length {a : String} {k : Nat} (ha : a.length ≤ k) :
    ("Time elapsed: " ++ a ++ " ms (-1.0 indicates timing disabled)\n").length ≤ k + 51 := by
  simp only [String.length_append, show "Time elapsed: ".length = 14 by decide,
    show " ms (-1.0 indicates timing disabled)\n".length = 37 by decide]
  omega

theorem count_length {t a b : String} {k : Nat} (ht : t.length ≤ 21) (ha : a.length ≤ k) (hb : b.length ≤ k) :
    (t ++ a ++ " out of " ++ b ++ "\n").length ≤ 2 * k + 30 := by
  simp only [String.length_append, show " out of ".length = 8 by decide, show "\n".length = 1 by decide]
  omega

/-- No message is longer than 97 characters. -/
theorem Msg.text_length {K : Type} {F : NumText K} (hF : F.Short) {time : String} (ht : time.length ≤ 40) {o : Params K}
    (ho : o.IntLimits) : ∀ {m : Msg K}, m.Within o → (m.text F time).length ≤ 97
  | .iterHeader, _ => line7_length (k := 12) (padLeft_le (by decide) le_rfl) (padLeft_le (by decide) le_rfl)
      (padLeft_le (by decide) le_rfl) (padLeft_le (by decide) le_rfl) (padLeft_le (by decide) le_rfl)
      (padLeft_le (by decide) le_rfl) (padLeft_le (by decide) le_rfl)
  | .iterLine _ _ _ _ _ _ _, hm => line7_length (k := 12) (padLeft_le ((ho.prox.count hm.1).trans (by norm_num)) le_rfl)
      (padLeft_le ((ho.newton.count hm.2).trans (by norm_num)) le_rfl)
      (padLeft_le (hF.sci4 _) le_rfl) (padLeft_le (hF.sci4 _) le_rfl) (padLeft_le (hF.sci4 _) le_rfl)
      (padLeft_le (hF.sci4 _) le_rfl) (padLeft_le (hF.sci4 _) le_rfl)
  | .detailedHeader _ _ _, hm => (header_length (k := 12) ((ho.prox.count hm.1).trans (by norm_num))
      ((ho.newton.count hm.2).trans (by norm_num)) (padLeft_le (hF.sci4 _) (by norm_num))).trans (by norm_num)
  | .detailedColumns, _ => (line5_length (k := 10) (padLeft_le (by decide) le_rfl) (padLeft_le (by decide) le_rfl)
      (padLeft_le (by decide) le_rfl) (padLeft_le (by decide) le_rfl) (padLeft_le (by decide) le_rfl)).trans (by norm_num)
  | .detailedLine _ _ _ _ _, hm => (line5_length (k := 14)
      (padLeft_le ((ho.inner.count hm).trans (by norm_num)) (by norm_num)) (padLeft_le (hF.sci6 _) (by norm_num))
      (padLeft_le (hF.sci6 _) (by norm_num)) (padLeft_le (hF.sci6 _) (by norm_num))
      (padLeft_le (hF.sci6 _) (by norm_num))).trans (by norm_num)
  | .detailedFooter _ _, _ => (footer_length (k := 12) (padLeft_le (hF.sci4 _) (by norm_num))
      (padLeft_le (hF.sci4 _) (by norm_num))).trans (by norm_num)
  | .finalBanner, _ => show "\nOptimization completed!  Exit code:".length ≤ 97 by decide
  | .finalFlag e, _ => show e.text.length ≤ 97 by cases e <;> decide
  | .finalTime, _ => (time_length ht).trans (by norm_num)
  | .finalProx p k, hm => by
      have h := int_text ho.prox
      rw [← hm.2] at h
      exact (count_length (k := 11) (by decide) ((ho.prox.count hm.1).trans (by norm_num)) h).trans (by norm_num)
  | .finalNewton n k, hm => by
      have h := int_text ho.newton
      rw [← hm.2] at h
      exact (count_length (k := 11) (by decide) ((ho.newton.count hm.1).trans (by norm_num)) h).trans (by norm_num)
  | .finalColumns, _ => (line4_length (k := 10) (padLeft_le (by decide) le_rfl) (padLeft_le (by decide) le_rfl)
      (padLeft_le (by decide) le_rfl) (padLeft_le (by decide) le_rfl)).trans (by norm_num)
  | .finalNorms _ _ _ _, _ => (line4_length (k := 12) (padLeft_le (hF.sci4 _) (by norm_num))
      (padLeft_le (hF.sci4 _) (by norm_num)) (padLeft_le (hF.sci4 _) (by norm_num))
      (padLeft_le (hF.sci4 _) (by norm_num))).trans (by norm_num)
  | .finalBlank, _ => show "\n".length ≤ 97 by decide

end Fbstab
