import Verif.Proofs.NanDense
import Verif.Proofs.NanMpc
import Verif.Proofs.UpMpc

/-!
# How infinite bounds spread
-/

namespace Fbstab

namespace XReal

/-- Neither NaN nor `-inf`. -/
def Big (a : XReal) : Prop := a = inf ∨ ∃ r : ℝ, a = up r

theorem up_big (r : ℝ) : Big (up r) := .inr ⟨r, rfl⟩

theorem inf_add_up (r : ℝ) : inf + up r = inf := by
  show XReal.add (.val ⊤) (.val (r : EReal)) = _
  simp [XReal.add, inf]

theorem up_add_inf (r : ℝ) : up r + inf = inf := by
  show XReal.add (.val (r : EReal)) (.val ⊤) = _
  simp [XReal.add, inf]

theorem inf_add_inf : inf + inf = inf := by
  show XReal.add (.val ⊤) (.val ⊤) = _
  simp [XReal.add, inf]

theorem inf_add_cases (a : XReal) : inf + a = inf ∨ inf + a = nan := by
  cases a with
  | nan => exact .inr rfl
  | val a =>
    show XReal.add (.val ⊤) (.val a) = _ ∨ XReal.add (.val ⊤) (.val a) = _
    unfold XReal.add
    by_cases h : a = ⊥
    · right; simp [h]
    · left; simp [h, inf, EReal.top_add_of_ne_bot h]

theorem inf_sub_cases (a : XReal) : inf - a = inf ∨ inf - a = nan := inf_add_cases (XReal.neg a)

theorem inf_mul_inf : inf * inf = inf := by
  show XReal.mul (.val ⊤) (.val ⊤) = _
  simp [XReal.mul, inf]

theorem up_mul_inf {r : ℝ} (h : 0 < r) : up r * inf = inf := by
  show XReal.mul (.val (r : EReal)) (.val ⊤) = _
  have h1 : (r : EReal) ≠ 0 := by exact_mod_cast h.ne'
  simp only [XReal.mul, inf]
  rw [if_neg (by rintro (⟨a, -⟩ | ⟨a, -⟩); exact h1 a; simp at a), EReal.coe_mul_top_of_pos h]

theorem inf_mul_up {r : ℝ} (h : 0 < r) : inf * up r = inf := by
  show XReal.mul (.val ⊤) (.val (r : EReal)) = _
  have h1 : (r : EReal) ≠ 0 := by exact_mod_cast h.ne'
  simp only [XReal.mul, inf]
  rw [if_neg (by rintro (⟨a, -⟩ | ⟨a, -⟩); simp at a; exact h1 a), EReal.top_mul_coe_of_pos h]

theorem sqrt_inf : Scalar.sqrt inf = inf := by
  show XReal.sqrt (.val ⊤) = _
  simp [XReal.sqrt, inf]

theorem neg_negInf : -negInf = inf := by
  show XReal.neg (.val ⊥) = _
  simp [XReal.neg, inf]

theorem Big.add_inf {a : XReal} (h : Big a) : a + inf = inf := by
  rcases h with rfl | ⟨r, rfl⟩
  · exact inf_add_inf
  · exact up_add_inf r

theorem Big.inf_add {a : XReal} (h : Big a) : inf + a = inf := by
  rcases h with rfl | ⟨r, rfl⟩
  · exact inf_add_inf
  · exact inf_add_up r

theorem Big.add {a b : XReal} (h : Big a) (h' : Big b) : Big (a + b) := by
  rcases h with rfl | ⟨r, rfl⟩
  · exact .inl h'.inf_add
  · rcases h' with rfl | ⟨q, rfl⟩
    · exact .inl (up_add_inf r)
    · exact .inr ⟨_, up_add r q⟩

theorem Big.sq {a : XReal} (h : Big a) : Big (a * a) := by
  rcases h with rfl | ⟨r, rfl⟩
  · exact .inl inf_mul_inf
  · exact .inr ⟨_, up_mul r r⟩

/-- `0 * inf` is NaN, for either sign of infinity, and so is `NaN * 0`. -/
theorem mul_inf_mul_zero (a : XReal) : a * inf * 0 = nan := by
  have key : ∀ c : EReal, c = ⊤ ∨ c = ⊥ → XReal.mul (.val c) (.val 0) = .nan := by
    rintro c (rfl | rfl) <;> simp [XReal.mul]
  cases a with
  | nan => rfl
  | val a =>
    show XReal.mul (XReal.mul (.val a) (.val ⊤)) (.val 0) = _
    induction a with
    | bot => simp [XReal.mul]
    | top => simp [XReal.mul]
    | coe r =>
      rcases lt_trichotomy r 0 with h | h | h
      · have e : XReal.mul (.val (r : EReal)) (.val ⊤) = .val ⊥ := by
          have h1 : (r : EReal) ≠ 0 := by exact_mod_cast h.ne
          simp only [XReal.mul]
          rw [if_neg (by rintro (⟨a, -⟩ | ⟨a, -⟩); exact h1 a; simp at a), EReal.coe_mul_top_of_neg h]
        rw [e]; exact key _ (.inr rfl)
      · subst h
        simp [XReal.mul]
      · have e := up_mul_inf h
        rw [show XReal.mul (.val (r : EReal)) (.val ⊤) = _ from e]; exact key _ (.inl rfl)

/-- The penalised residual of a pair with an infinite margin and a multiplier that is not positive. -/
theorem penalized_inf_nan (alpha : XReal) {v : XReal} (h : ¬0 < v) :
    alpha * cmin inf v + (1 - alpha) * cmax 0 inf * cmax 0 v = nan := by
  have e1 : cmax 0 inf = inf := by
    unfold cmax; rw [if_pos]; show (0 : EReal) < ⊤; exact EReal.coe_lt_top 0
  have e2 : cmax 0 v = 0 := by unfold cmax; rw [if_neg h]
  rw [e1, e2, mul_inf_mul_zero, add_nan']

/-- The same for the penalised Fischer-Burmeister function. -/
theorem pfb_inf_nan (alpha : XReal) {v : XReal} (h : ¬0 < v) : pfb inf v alpha = nan := by
  have e1 : cmax 0 inf = inf := by
    unfold cmax; rw [if_pos]; show (0 : EReal) < ⊤; exact EReal.coe_lt_top 0
  have e2 : cmax 0 v = 0 := by unfold cmax; rw [if_neg h]
  unfold pfb
  rw [e1, e2, mul_inf_mul_zero, add_nan']

theorem penalized_nan (alpha : XReal) {y v : XReal} (hy : y = inf ∨ y = nan) (h : ¬0 < v) :
    alpha * cmin y v + (1 - alpha) * cmax 0 y * cmax 0 v = nan := by
  rcases hy with rfl | rfl
  · exact penalized_inf_nan alpha h
  · have : cmin nan v = nan := by unfold cmin; rw [if_neg lt_nan]
    rw [this]; simp

theorem pfb_nan_or (alpha : XReal) {y v : XReal} (hy : y = inf ∨ y = nan) (h : ¬0 < v) :
    pfb y v alpha = nan := by
  rcases hy with rfl | rfl
  · exact pfb_inf_nan alpha h
  · exact pfb_nan _ _ _ (.inl rfl)

/-- The penalised residual of a pair with an infinite margin and a positive multiplier. -/
theorem penalized_inf {alpha v : ℝ} (h1 : alpha < 1) (h : 0 < v) :
    up alpha * cmin inf (up v) + (1 - up alpha) * cmax 0 inf * cmax 0 (up v) = inf := by
  have e1 : cmax 0 inf = inf := by
    unfold cmax; rw [if_pos]; show (0 : EReal) < ⊤; exact EReal.coe_lt_top 0
  have e2 : cmax 0 (up v) = up v := by
    unfold cmax; rw [if_pos]; rw [up_zero, up_lt]; exact h
  have e3 : cmin inf (up v) = up v := by
    unfold cmin; rw [if_pos]; show (v : EReal) < ⊤; exact EReal.coe_lt_top v
  rw [e1, e2, e3, up_one, up_sub, up_mul_inf (by linarith), inf_mul_up h, up_mul, up_add_inf]

theorem penalized_up (alpha y v : ℝ) :
    Big (up alpha * cmin (up y) (up v) + (1 - up alpha) * cmax 0 (up y) * cmax 0 (up v)) := by
  rw [up_zero, up_one, up_cmin, up_cmax, up_cmax, up_sub, up_mul, up_mul, up_mul, up_add]
  exact up_big _

end XReal

theorem sumFin_big {n : Nat} {f : Fin n → XReal} (h : ∀ i, (f i).Big) : (sumFin n f).Big := by
  unfold sumFin
  refine forFin_induct (n := n) (f := fun i (s : XReal) => s + f i) (s := 0) (P := fun _ s => s.Big)
    (XReal.up_big 0) ?_
  intro i s hs
  exact hs.add (h i)

theorem sumFin_inf {n : Nat} {f : Fin n → XReal} (h : ∀ i, (f i).Big) (i : Fin n) (hi : f i = XReal.inf) :
    sumFin n f = XReal.inf := by
  unfold sumFin
  have := forFin_induct (n := n) (f := fun i (s : XReal) => s + f i) (s := 0)
    (P := fun t s => s.Big ∧ (i.1 < t → s = XReal.inf)) ⟨XReal.up_big 0, fun h => absurd h (Nat.not_lt_zero _)⟩ ?_
  · exact this.2 i.2
  · intro k s hs
    refine ⟨hs.1.add (h k), fun hk => ?_⟩
    by_cases e : k = i
    · subst e; rw [hi]; exact hs.1.add_inf
    · rw [hs.2 (by have : k.1 ≠ i.1 := fun h => e (Fin.ext h); omega)]; exact (h k).inf_add

/-- No entry is NaN or `-inf`. -/
def Vec.Big {n : Nat} (x : Vec XReal n) : Prop := ∀ i, (x i).Big

theorem Vec.up_big {n : Nat} (x : Vec ℝ n) : x.up.Big := fun i => by
  rw [Vec.up_get]; exact XReal.up_big _

theorem Vec.Big.squaredNorm {n : Nat} {x : Vec XReal n} (h : x.Big) : x.squaredNorm.Big :=
by
  rw [Vec.squaredNorm, XReal.dotFin_eq]
  exact sumFin_big fun i => (h i).sq

theorem Vec.Big.squaredNorm_inf {n : Nat} {x : Vec XReal n} (h : x.Big) {i : Fin n} (hi : x i = XReal.inf) :
    x.squaredNorm = XReal.inf :=
by
  rw [Vec.squaredNorm, XReal.dotFin_eq]
  exact sumFin_inf (fun i => (h i).sq) i (by rw [hi, XReal.inf_mul_inf])

theorem Vec.Big.norm_inf {n : Nat} {x : Vec XReal n} (h : x.Big) {i : Fin n} (hi : x i = XReal.inf) :
    x.norm = XReal.inf := by rw [Vec.norm, h.squaredNorm_inf hi, XReal.sqrt_inf]

theorem norm3_inf {nz nl nv : Nat} (z : Vec ℝ nz) (l : Vec ℝ nl) {v : Vec XReal nv} (h : v.Big) {i : Fin nv}
    (hi : v i = XReal.inf) : norm3 z.up l.up v = XReal.inf := by
  unfold norm3
  rw [h.norm_inf hi, XReal.inf_mul_inf, Vec.up_norm, Vec.up_norm, up_mul, up_mul, up_add, XReal.up_add_inf,
    XReal.sqrt_inf]

/-- The residual is `+inf` if margins are finite or `+inf`, with positive multipliers at the infinite ones. -/
theorem residual_inf {nz nl nv : Nat} {q : QPOps XReal nz nl nv} {alpha : ℝ} (h1 : alpha < 1)
    {x : Point XReal nz nl nv} {g : Vec ℝ nz} {e : Vec ℝ nl} {v : Vec ℝ nv}
    (hg : gradLagrangian q x.z x.l x.v = g.up) (he : eqDefect q x.z = e.up) (hv : x.v = v.up)
    (hy : x.y.Big) (hp : ∀ i, x.y i = XReal.inf → 0 < v i) (i : Fin nv) (hi : x.y i = XReal.inf) :
    residualNorm q (up alpha) x = XReal.inf := by
  unfold residualNorm
  rw [hg, he]
  refine norm3_inf g e (v := penalizedMin (up alpha) x.y x.v) ?_ (i := i) ?_
  · intro j
    simp only [penalizedMin, Vec.get_ofFn, hv, Vec.up_get]
    rcases hy j with e | ⟨r, e⟩
    · rw [e, XReal.penalized_inf h1 (hp j e)]
      exact .inl rfl
    · rw [e]
      exact XReal.penalized_up _ _ _
  · simp only [penalizedMin, Vec.get_ofFn, hv, Vec.up_get]
    rw [hi, XReal.penalized_inf h1 (hp i hi)]

theorem stoppingTol_inf {nz nl nv : Nat} {q : QPOps XReal nz nl nv} {o : Params ℝ} (h : 0 < o.relTol)
    (hq : q.forcingNorm = XReal.inf) : stoppingTol q o.up = XReal.inf := by
  unfold stoppingTol
  rw [hq]
  show up o.absTol + up o.relTol * (1 + XReal.inf) = XReal.inf
  rw [up_one, XReal.up_add_inf, XReal.up_mul_inf h, XReal.up_add_inf]

/-! ## Margins -/

namespace XReal

theorem add_inf_cases (a : XReal) : a + inf = inf ∨ a + inf = nan := by
  cases a with
  | nan => exact .inr rfl
  | val a =>
    show XReal.add (.val a) (.val ⊤) = _ ∨ XReal.add (.val a) (.val ⊤) = _
    unfold XReal.add
    by_cases h : a = ⊥
    · right; simp [h]
    · left; simp [h, inf, EReal.add_top_of_ne_bot h]

theorem one_mul_inf : (1 : XReal) * inf = inf := by rw [up_one]; exact up_mul_inf one_pos
theorem zero_add_inf : (0 : XReal) + inf = inf := by rw [up_zero]; exact up_add_inf 0

theorem neg_one_mul_negInf : (-1 : XReal) * negInf = inf := by
  show XReal.mul (.val (-1)) (.val ⊥) = _
  have h1 : (-1 : EReal) ≠ 0 := by
    rw [show (-1 : EReal) = ((-1 : ℝ) : EReal) from by simp]
    exact_mod_cast (by norm_num : (-1 : ℝ) ≠ 0)
  simp only [XReal.mul, inf]
  rw [if_neg (by rintro (⟨a, -⟩ | ⟨a, -⟩); exact h1 a; simp at a),
    show (-1 : EReal) = ((-1 : ℝ) : EReal) from by simp, EReal.coe_mul_bot_of_neg (by norm_num)]

end XReal

namespace DenseData
variable {nz nl nv : Nat} {d : DenseData XReal nz nl nv}

theorem margin_get (z : Vec XReal nz) (i : Fin nv) :
    margin d.ops z i = (((-1 : XReal) * d.A) * z) i + 1 * (0 + 1 * d.b i) := by
  simp only [margin, ops, gemvA, axpyb, Vec.get_add, Vec.get_smul, Vec.get_const]

theorem margin_inf_or (z : Vec XReal nz) {i : Fin nv} (h : d.b i = XReal.inf) :
    margin d.ops z i = XReal.inf ∨ margin d.ops z i = .nan := by
  rw [margin_get, h, XReal.one_mul_inf, XReal.zero_add_inf, XReal.one_mul_inf]
  exact XReal.add_inf_cases _

theorem margin_open {A : Mat ℝ nv nz} (hA : d.A = A.up) (z : Vec ℝ nz) (i : Fin nv) :
    (d.b i = XReal.inf → margin d.ops z.up i = XReal.inf) ∧
    (∀ r, d.b i = Fbstab.up r → ∃ q, margin d.ops z.up i = Fbstab.up q) := by
  rw [margin_get, hA, up_one, up_neg, Mat.up_smul, Mat.up_mulVec, Vec.up_get]
  refine ⟨fun h => ?_, fun r h => ?_⟩
  · rw [h, ← up_one, XReal.one_mul_inf, XReal.zero_add_inf, XReal.one_mul_inf, XReal.up_add_inf]
  · rw [h, up_zero, up_mul, up_add, up_mul, up_add]
    exact ⟨_, rfl⟩

theorem forcingNorm_inf {f : Vec ℝ nz} {h : Vec ℝ nl} (hf : d.f = f.up) (hh : d.h = h.up) (hb : d.b.Big)
    {i : Fin nv} (hi : d.b i = XReal.inf) : d.ops.forcingNorm = XReal.inf := by
  simp only [ops, forcingNorm]
  rw [hb.squaredNorm_inf hi, hf, hh, Vec.up_squaredNorm, Vec.up_squaredNorm, XReal.inf_add_up,
    XReal.inf_add_up, XReal.sqrt_inf]

end DenseData

namespace MpcData
variable {N nx nu nc : Nat} {d : MpcData XReal N nx nu nc}

theorem margin_get (z : Vec XReal ((N + 1) * (nx + nu))) (k : Fin (N + 1)) (j : Fin nc) :
    margin d.ops z (flatIdx k j) =
      (0 + (-1 : XReal) * d.d k j) - ((d.E k * xBlock z k) j + (d.L k * uBlock z k) j) := by
  rw [← colBlock_get]
  simp only [margin, ops]
  rw [d.gemvA_neg, d.axpyb_any]
  simp only [Vec.get_add, Vec.get_sub, Vec.get_smul, colBlock_get, Vec.get_const]

theorem margin_inf_or (z : Vec XReal ((N + 1) * (nx + nu))) {k : Fin (N + 1)} {j : Fin nc}
    (h : d.d k j = XReal.negInf) :
    margin d.ops z (flatIdx k j) = XReal.inf ∨ margin d.ops z (flatIdx k j) = .nan := by
  rw [margin_get, h, XReal.neg_one_mul_negInf, XReal.zero_add_inf]
  exact XReal.inf_sub_cases _

theorem margin_open {d' : MpcData ℝ N nx nu nc} (hE : d.E = d'.up.E) (hL : d.L = d'.up.L)
    (z : Vec ℝ ((N + 1) * (nx + nu))) (k : Fin (N + 1)) (j : Fin nc) :
    (d.d k j = XReal.negInf → margin d.ops z.up (flatIdx k j) = XReal.inf) ∧
    (∀ r, d.d k j = Fbstab.up r → ∃ q, margin d.ops z.up (flatIdx k j) = Fbstab.up q) := by
  rw [margin_get, hE, hL]
  have e1 : xBlock z.up k = (xBlock z k).up := by ext i; simp [xBlock, Vec.up]
  have e2 : uBlock z.up k = (uBlock z k).up := by ext i; simp [uBlock, Vec.up]
  have e3 : d'.up.E k = (d'.E k).up := by simp [MpcData.up, Vec.map]
  have e4 : d'.up.L k = (d'.L k).up := by simp [MpcData.up, Vec.map]
  rw [e1, e2, e3, e4, Mat.up_mulVec, Mat.up_mulVec, Vec.up_get, Vec.up_get, up_add]
  refine ⟨fun h => ?_, fun r h => ?_⟩
  · rw [h, XReal.neg_one_mul_negInf, XReal.zero_add_inf]
    exact XReal.inf_add_up _
  · rw [h, up_zero, up_one, up_neg, up_mul, up_add, up_sub]
    exact ⟨_, rfl⟩

theorem forcingNorm_inf {d' : MpcData ℝ N nx nu nc} {dd : Vec (Vec XReal nc) (N + 1)}
    (hd : d = { d'.up with d := dd }) (hb : ∀ k, ∀ j, dd k j = XReal.negInf ∨ ∃ r, dd k j = Fbstab.up r)
    {k : Fin (N + 1)} {j : Fin nc} (hi : dd k j = XReal.negInf) : d.ops.forcingNorm = XReal.inf := by
  have hsq : XReal.negInf * XReal.negInf = XReal.inf := by
    show XReal.mul (.val ⊥) (.val ⊥) = _
    simp [XReal.mul, XReal.inf]
  have hsqb : ∀ k j, (dd k j * dd k j).Big := by
    intro k j
    rcases hb k j with h | ⟨r, h⟩ <;> rw [h]
    · exact .inl hsq
    · exact .inr ⟨_, Fbstab.up_mul r r⟩
  have hdb : ∀ k, (dd k).squaredNorm.Big := fun k => by
    rw [Vec.squaredNorm, XReal.dotFin_eq]; exact sumFin_big (hsqb k)
  have hdk : (dd k).squaredNorm = XReal.inf := by
    rw [Vec.squaredNorm, XReal.dotFin_eq]; exact sumFin_inf (hsqb k) j (by rw [hi, hsq])
  have hq : ∀ i, (d.q i).squaredNorm.Big := fun i => by
    rw [hd]; simp only [MpcData.up, Vec.map, Vec.get_ofFn]; exact (Vec.up_big _).squaredNorm
  have hr : ∀ i, (d.r i).squaredNorm.Big := fun i => by
    rw [hd]; simp only [MpcData.up, Vec.map, Vec.get_ofFn]; exact (Vec.up_big _).squaredNorm
  have hx : ∀ i : Fin (N + 1), (if h : i.1 = 0 then d.x0.squaredNorm
         else (d.c ⟨i.1 - 1, by have := i.2; omega⟩).squaredNorm).Big := fun i => by
    rw [hd]
    split
    · simp only [MpcData.up]; exact (Vec.up_big _).squaredNorm
    · simp only [MpcData.up, Vec.map, Vec.get_ofFn]; exact (Vec.up_big _).squaredNorm
  have hdd : d.d = dd := by rw [hd]
  simp only [ops, forcingNorm]
  have := forFin_induct (n := N + 1) (s := (0 : XReal)) (f := fun i s => s + (d.q i).squaredNorm +
    (d.r i).squaredNorm + (d.d i).squaredNorm + (if h : i.1 = 0 then d.x0.squaredNorm
         else (d.c ⟨i.1 - 1, by have := i.2; omega⟩).squaredNorm))
    (P := fun t s => s.Big ∧ (k.1 < t → s = XReal.inf))
    ⟨XReal.up_big 0, fun h => absurd h (Nat.not_lt_zero _)⟩ ?_
  · rw [this.2 k.2]; exact XReal.sqrt_inf
  · intro i s hs
    rw [hdd]
    refine ⟨(((hs.1.add (hq i)).add (hr i)).add (hdb i)).add (hx i), fun hk => ?_⟩
    by_cases e : i = k
    · subst e
      rw [hdk, ((hs.1.add (hq i)).add (hr i)).add_inf, (hx i).inf_add]
    · rw [hs.2 (by have : i.1 ≠ k.1 := fun h => e (Fin.ext h); omega), (hq i).inf_add, (hr i).inf_add,
        (hdb i).inf_add, (hx i).inf_add]

end MpcData
end Fbstab
