import Verif.Props.Singular
import Verif.Props.RoundingExamplesMpc

/-!
# C13 in IEEE arithmetic: an optimal control problem on which `Solve` throws
-/

namespace Fbstab
open Binary64

/-- One state, two controls: `min 2^29 (u1 + u2)^2 + 3 u1 + 1/2 x1^2` with `x1 = u1 - u2`. -/
def flatOcp : Ocp 1 1 2 1 where
  Q := fun _ _ _ => 1
  R := fun _ _ _ => 2 ^ 30
  S := fun _ _ _ => 0
  q := fun _ _ => 0
  r := ![![3, 0], ![0, 0]]
  A := fun _ _ _ => 0
  B := fun _ _ => ![1, -1]
  c := fun _ _ => 0
  E := fun _ _ _ => 0
  L := fun _ _ _ => 0
  d := fun _ _ => -4
  x0 := fun _ => 0

/-- A sequence of matrices with the same number everywhere. -/
noncomputable def equalSeq (n r c : Nat) (a : ℝ) : MapSequence Binary64 :=
  ⟨some (Array.replicate (n * r * c) (b64 a)), n, r, c, by simp, by simp⟩

theorem equalSeq_mat {n r c : Nat} {a : ℝ} (k : Fin n) (i : Fin r) (j : Fin c) :
    (equalSeq n r c a).toMat r c k i j = b64 a := by
  have : k.1 * r * c + j.1 * r + i.1 < n * r * c := by
    have h1 : j.1 * r + i.1 < r * c := by
      calc j.1 * r + i.1 < j.1 * r + r := by omega
        _ = (j.1 + 1) * r := by ring
        _ ≤ c * r := Nat.mul_le_mul_right r j.2
        _ = r * c := mul_comm _ _
    calc k.1 * r * c + j.1 * r + i.1 < k.1 * r * c + r * c := by omega
      _ = (k.1 + 1) * (r * c) := by ring
      _ ≤ n * (r * c) := Nat.mul_le_mul_right _ k.2
      _ = n * r * c := by ring
  simp [equalSeq, MapSequence.toMat, this]

theorem equalSeq_vec {n r : Nat} {a : ℝ} (k : Fin n) (i : Fin r) : (equalSeq n r 1 a).toVec r k i = b64 a := by
  have : k.1 * r + i.1 < n * r := by
    calc k.1 * r + i.1 < k.1 * r + r := by omega
      _ = (k.1 + 1) * r := by ring
      _ ≤ n * r := Nat.mul_le_mul_right r k.2
  simp [equalSeq, MapSequence.toVec, this]

/-- The same in binary64. -/
noncomputable def flatMpc : MpcProblem Binary64 where
  Q := equalSeq 2 1 1 1
  R := equalSeq 2 2 2 (2 ^ 30)
  S := equalSeq 2 2 1 0
  q := equalSeq 2 1 1 0
  r := ⟨some #[b64 3, b64 0, b64 0, b64 0], 2, 2, 1, by rintro d ⟨⟩; simp, by simp⟩
  A := equalSeq 1 1 1 0
  B := ⟨some #[b64 1, b64 (-1)], 1, 1, 2, by rintro d ⟨⟩; simp, by simp⟩
  c := equalSeq 1 1 1 0
  E := equalSeq 2 1 1 0
  L := equalSeq 2 1 2 0
  d := equalSeq 2 1 1 (-4)
  x0 := ⟨#[b64 0]⟩

/-- The guess 0. -/
noncomputable def flatMpcGuess : CallerVar Binary64 :=
  ⟨false, ⟨#[b64 0, b64 0, b64 0, b64 0, b64 0, b64 0]⟩, ⟨#[b64 0, b64 0]⟩, ⟨#[b64 0, b64 0]⟩, ⟨#[b64 0, b64 0]⟩⟩

noncomputable abbrev flatMpcData : MpcData Binary64 1 1 2 1 := flatMpc.toData 1 1 2 1

namespace FlatMpc
open Drift (alpha sigma lit2 lit6 lit12 lit13 delta oneSub mulC addC subC sqrtC)

theorem dQ (k i j) : flatMpcData.Q k i j = b64 1 := by
  simp only [flatMpcData, flatMpc, MpcProblem.toData, Vec.get_ofFn]; exact equalSeq_mat k i j
theorem dR (k i j) : flatMpcData.R k i j = b64 (2 ^ 30) := by
  simp only [flatMpcData, flatMpc, MpcProblem.toData, Vec.get_ofFn]; exact equalSeq_mat k i j
theorem dS (k i j) : flatMpcData.S k i j = b64 0 := by
  simp only [flatMpcData, flatMpc, MpcProblem.toData, Vec.get_ofFn]; exact equalSeq_mat k i j
theorem dq (k i) : flatMpcData.q k i = b64 0 := by
  simp only [flatMpcData, flatMpc, MpcProblem.toData, Vec.get_ofFn]; exact equalSeq_vec k i
theorem dA (k i j) : flatMpcData.A k i j = b64 0 := by
  simp only [flatMpcData, flatMpc, MpcProblem.toData, Vec.get_ofFn]; exact equalSeq_mat k i j
theorem dc (k i) : flatMpcData.c k i = b64 0 := by
  simp only [flatMpcData, flatMpc, MpcProblem.toData, Vec.get_ofFn]; exact equalSeq_vec k i
theorem dE (k i j) : flatMpcData.E k i j = b64 0 := by
  simp only [flatMpcData, flatMpc, MpcProblem.toData, Vec.get_ofFn]; exact equalSeq_mat k i j
theorem dL (k i j) : flatMpcData.L k i j = b64 0 := by
  simp only [flatMpcData, flatMpc, MpcProblem.toData, Vec.get_ofFn]; exact equalSeq_mat k i j
theorem dd (k i) : flatMpcData.d k i = b64 (-4) := by
  simp only [flatMpcData, flatMpc, MpcProblem.toData, Vec.get_ofFn]; exact equalSeq_vec k i
theorem dx0 (i) : flatMpcData.x0 i = b64 0 := by
  obtain rfl : i = 0 := Subsingleton.elim _ _
  rfl
theorem dr (k : Fin 2) (i : Fin 2) : flatMpcData.r k i = b64 (flatOcp.r k i) := by
  fin_cases k <;> fin_cases i <;> rfl
theorem dB (i : Fin 1) (j : Fin 2) : flatMpcData.B 0 i j = b64 (flatOcp.B 0 i j) := by
  obtain rfl : i = 0 := Subsingleton.elim _ _
  fin_cases j <;> rfl

theorem rep30 : Representable ((2 : ℝ) ^ 30) := repP 30 (by norm_num)
theorem repB (i : Fin 1) (j : Fin 2) : Representable (flatOcp.B 0 i j) := by
  fin_cases j
  · exact representable_one
  · exact representable_neg representable_one
theorem repr (k : Fin 2) (i : Fin 2) : Representable (flatOcp.r k i) := by
  fin_cases k <;> fin_cases i
  · exact Flat.rep3
  all_goals exact representable_zero

theorem reads : rounding.ReadsMpc flatMpcData flatOcp where
  Q k i j := by rw [dQ]; exact b64_toReal representable_one
  R k i j := by rw [dR]; exact b64_toReal rep30
  S k i j := by rw [dS]; exact b64_toReal representable_zero
  q k i := by rw [dq]; exact b64_toReal representable_zero
  r k i := by rw [dr]; exact b64_toReal (repr k i)
  A k i j := by rw [dA]; exact b64_toReal representable_zero
  B k i j := by
    obtain rfl : k = 0 := Subsingleton.elim _ _
    rw [dB]; exact b64_toReal (repB i j)
  c k i := by rw [dc]; exact b64_toReal representable_zero
  E k i j := by rw [dE]; exact b64_toReal representable_zero
  L k i j := by rw [dL]; exact b64_toReal representable_zero
  d k i := by rw [dd]; exact b64_toReal (representable_neg rep4)
  x0 i := by rw [dx0]; exact b64_toReal representable_zero

theorem fits : MpcFits 1 1 2 1 flatMpc flatMpcGuess := by
  constructor <;> first | exact ⟨rfl, rfl, rfl⟩ | exact ⟨rfl, rfl⟩ | rfl

theorem gz (i : Fin 6) : flatMpcGuess.z.toVec 6 i = b64 0 := by fin_cases i <;> rfl
theorem gl (i : Fin 2) : flatMpcGuess.l.toVec 2 i = b64 0 := by fin_cases i <;> rfl
theorem gv (i : Fin 2) : flatMpcGuess.v.toVec 2 i = b64 0 := by fin_cases i <;> rfl

noncomputable def z0 : Vec Binary64 ((1 + 1) * (1 + 2)) := flatMpcGuess.z.toVec 6
noncomputable def l0 : Vec Binary64 ((1 + 1) * 1) := flatMpcGuess.l.toVec 2
noncomputable def v0 : Vec Binary64 ((1 + 1) * 1) := flatMpcGuess.v.toVec 2

theorem hz (i) : z0 i = b64 0 := gz i
theorem hl (i) : l0 i = b64 0 := gl i
theorem hv (i) : v0 i = b64 0 := gv i
theorem hx (i : Fin (1 + 1)) (j : Fin 1) : xBlock z0 i j = b64 0 := by rw [xBlock_get]; exact hz _
theorem hu (i : Fin (1 + 1)) (j : Fin 2) : uBlock z0 i j = b64 0 := by rw [uBlock_get]; exact hz _

theorem finQ (k i j) : Finite (flatMpcData.Q k i j) := by rw [dQ]; exact finite_b64 representable_one
theorem finR (k i j) : Finite (flatMpcData.R k i j) := by rw [dR]; exact finite_b64 rep30
theorem finS (k i j) : Finite (flatMpcData.S k i j) := by rw [dS]; exact finite_b64 representable_zero
theorem finA (k i j) : Finite (flatMpcData.A k i j) := by rw [dA]; exact finite_b64 representable_zero
theorem finB (k i j) : Finite (flatMpcData.B k i j) := by
  obtain rfl : k = 0 := Subsingleton.elim _ _
  rw [dB]; exact finite_b64 (repB i j)
theorem finE (k i j) : Finite (flatMpcData.E k i j) := by rw [dE]; exact finite_b64 representable_zero
theorem finL (k i j) : Finite (flatMpcData.L k i j) := by rw [dL]; exact finite_b64 representable_zero

theorem one_mul' {r : ℝ} (h : Representable r) : (1 : Binary64) * b64 r = b64 r := by
  rw [b64_one, b64_mul representable_one h, one_mul]
theorem add_zero' {r : ℝ} (h : Representable r) : b64 r + b64 0 = b64 r := by
  rw [b64_add h representable_zero, add_zero]
theorem zero_add' {r : ℝ} (h : Representable r) : b64 0 + b64 r = b64 r := by
  rw [b64_add representable_zero h, zero_add]

theorem grad_x (i : Fin (1 + 1)) (j : Fin 1) : gradLagrangian flatMpcData.ops z0 l0 v0 (xIdx i j) = b64 0 := by
  have hl' : ∀ (k : Fin (1 + 1)) (j : Fin 1), colBlock l0 k j = b64 0 := fun k j => by rw [colBlock_get]; exact hl _
  have hv' : ∀ (k : Fin (1 + 1)) (j : Fin 1), colBlock v0 k j = b64 0 := fun k j => by rw [colBlock_get]; exact hv _
  have m1 : (-1 : Binary64) * b64 0 = b64 0 := finite_mul_zero finite_neg_one
  have m2 : (1 : Binary64) * b64 0 = b64 0 := finite_mul_zero finite_one
  rcases Rounding.mpc_grad_x (d := flatMpcData) rounding.beqOk z0 l0 v0 i j with ⟨i', -, e⟩ | ⟨-, e⟩
  · rw [e, dq, m2, b64_zero, mulVec_zero (finQ i) (hx i), mulVecT_zero (finS i) (hu i), hl, m1,
      mulVecT_zero (finA i') (hl' _), mulVecT_zero (finE i) (hv' _)]
    simp only [zero_add_zero]
  · rw [e, dq, m2, b64_zero, mulVec_zero (finQ i) (hx i), mulVecT_zero (finS i) (hu i), hl, m1,
      mulVecT_zero (finE i) (hv' _)]
    simp only [zero_add_zero]

theorem grad_u (i : Fin (1 + 1)) (j : Fin 2) :
    gradLagrangian flatMpcData.ops z0 l0 v0 (uIdx i j) = b64 (flatOcp.r i j) := by
  have hl' : ∀ (k : Fin (1 + 1)) (j : Fin 1), colBlock l0 k j = b64 0 := fun k j => by rw [colBlock_get]; exact hl _
  have hv' : ∀ (k : Fin (1 + 1)) (j : Fin 1), colBlock v0 k j = b64 0 := fun k j => by rw [colBlock_get]; exact hv _
  have rr := repr i j
  rcases Rounding.mpc_grad_u (d := flatMpcData) rounding.beqOk z0 l0 v0 i j with ⟨i', -, e⟩ | ⟨-, e⟩
  · rw [e, dr, one_mul' rr, b64_zero, mulVec_zero (finS i) (hx i), mulVec_zero (finR i) (hu i),
      mulVecT_zero (finB i') (hl' _), mulVecT_zero (finL i) (hv' _)]
    simp only [zero_add_zero, zero_add' rr, add_zero' rr]
  · rw [e, dr, one_mul' rr, b64_zero, mulVec_zero (finS i) (hx i), mulVec_zero (finR i) (hu i),
      mulVecT_zero (finL i) (hv' _)]
    simp only [zero_add_zero, zero_add' rr, add_zero' rr]

theorem defect (a : Fin ((1 + 1) * 1)) : eqDefect flatMpcData.ops z0 a = b64 0 := by
  have m1 : (-1 : Binary64) * b64 0 = b64 0 := finite_mul_zero finite_neg_one
  have m3 : (- -1 : Binary64) * b64 0 = b64 0 := finite_mul_zero finite_neg_neg_one
  obtain ⟨i, j, rfl⟩ := flatIdx_surj a
  refine Fin.cases ?_ (fun i => ?_) i
  · rw [Rounding.mpc_eq_zero rounding.beqOk, dx0, hz, m1, m3, b64_zero, zero_add_zero, zero_add_zero]
  · rw [Rounding.mpc_eq_succ rounding.beqOk, dc, hz, m1, b64_zero, mulVec_zero (finA i) (hx _),
      mulVec_zero (finB i) (hu _), zero_add_zero, zero_sub_zero, zero_add_zero]

theorem marg (a : Fin ((1 + 1) * 1)) : margin flatMpcData.ops z0 a = b64 4 := by
  obtain ⟨i, j, rfl⟩ := flatIdx_surj a
  have e : margin flatMpcData.ops z0 (flatIdx i j) = (0 + (-1) * flatMpcData.d i j) -
      ((flatMpcData.E i * xBlock z0 i) j + (flatMpcData.L i * uBlock z0 i) j) := by
    rw [← colBlock_get]
    simp only [margin, MpcData.ops]
    rw [MpcData.gemvA_neg_gen _ rounding.beqOk, MpcData.axpyb_any_gen]
    simp only [Vec.get_add, Vec.get_sub, Vec.get_smul, colBlock_get, Vec.get_const]
  rw [e, dd, mulVec_zero (finE i) (hx _), mulVec_zero (finL i) (hu _), zero_add_zero, b64_zero, b64_one,
    b64_neg representable_one, b64_mul (representable_neg representable_one) (representable_neg rep4),
    show (-1 : ℝ) * -4 = 4 by norm_num, b64_add representable_zero rep4, zero_add,
    b64_sub rep4 representable_zero, sub_zero]

noncomputable def E : Core.Env Binary64 ((1 + 1) * (1 + 2)) ((1 + 1) * 1) ((1 + 1) * 1) :=
  Core.env (riccatiSem Binary64 rounding.beqOk.zero 1 1 2 1) flatMpcData flatMpcData.ops Params.defaults

noncomputable def x0 : Point Binary64 ((1 + 1) * (1 + 2)) ((1 + 1) * 1) ((1 + 1) * 1) := Core.startPt E z0 l0 v0

theorem iz (i) : Is (x0.z i) 0 := by
  have : x0.z i = b64 0 := hz i
  rw [this]; exact is_b64 representable_zero
theorem il (i) : Is (x0.l i) 0 := by
  have : x0.l i = b64 0 := hl i
  rw [this]; exact is_b64 representable_zero
theorem iv (i) : Is (x0.v i) 0 := by
  have : x0.v i = b64 0 := hv i
  rw [this]; exact is_b64 representable_zero
theorem iy (i) : Is (x0.y i) 4 := by
  have : x0.y i = b64 4 := marg i
  rw [this]; exact is_b64 rep4

/-- The norm of a triple whose only entry is 3, in place 1. -/
theorem norm_three {a : Vec Binary64 6} {b c : Vec Binary64 2} (h0 : Is (a 0) 0) (h1 : Is (a 1) 3) (h2 : Is (a 2) 0)
    (h3 : Is (a 3) 0) (h4 : Is (a 4) 0) (h5 : Is (a 5) 0) (hb : ∀ i, Is (b i) 0) (hc : ∀ i, Is (c i) 0) :
    Is (norm3 a b c) 3 := by
  have e : norm3 a b c = Scalar.sqrt (Scalar.sqrt (0 + a 0 * a 0 + a 1 * a 1 + a 2 * a 2 + a 3 * a 3 + a 4 * a 4 +
      a 5 * a 5) * Scalar.sqrt (0 + a 0 * a 0 + a 1 * a 1 + a 2 * a 2 + a 3 * a 3 + a 4 * a 4 + a 5 * a 5) +
      Scalar.sqrt (0 + b 0 * b 0 + b 1 * b 1) * Scalar.sqrt (0 + b 0 * b 0 + b 1 * b 1) +
      Scalar.sqrt (0 + c 0 * c 0 + c 1 * c 1) * Scalar.sqrt (0 + c 0 * c 0 + c 1 * c 1)) := rfl
  rw [e]
  have sq : ∀ {x : Binary64}, Is x 0 → Is (x * x) 0 := fun h => h.mul_zero h
  have n := ((((((Is.zero.zero_add (sq h0)).zero_add (h1.mul h1 (c := 9) (by norm_num) Flat.rep9)).add_zero
    (sq h2)).add_zero (sq h3)).add_zero (sq h4)).add_zero (sq h5)).sqrt (c := 3)
    (by norm_num) (by norm_num) Flat.rep3
  have s : ∀ {x y : Binary64}, Is x 0 → Is y 0 → Is (Scalar.sqrt (0 + x * x + y * y)) 0 := fun h h' =>
    ((Is.zero.zero_add (h.mul_zero h)).zero_add (sq h')).sqrt le_rfl (by norm_num) representable_zero
  exact (((n.mul n (c := 9) (by norm_num) Flat.rep9).add_zero (sq (s (hb 0) (hb 1)))).add_zero
    (sq (s (hc 0) (hc 1)))).sqrt (by norm_num) (by norm_num) Flat.rep3

/-- The gradient of the Lagrangian at the guess, entry by entry. -/
theorem gr : let g := gradLagrangian flatMpcData.ops z0 l0 v0
    Is (g (0 : Fin 6)) 0 ∧ Is (g (1 : Fin 6)) 3 ∧ Is (g (2 : Fin 6)) 0 ∧ Is (g (3 : Fin 6)) 0 ∧ Is (g (4 : Fin 6)) 0 ∧
      Is (g (5 : Fin 6)) 0 := by
  have h0 := is_b64 representable_zero
  have a0 := grad_x 0 0
  have a3 := grad_x 1 0
  have a1 := grad_u 0 0
  have a2 := grad_u 0 1
  have a4 := grad_u 1 0
  have a5 := grad_u 1 1
  refine ⟨?_, ?_, ?_, ?_, ?_, ?_⟩
  · exact (congrArg (fun t => Is t 0) a0).mpr h0
  · exact (congrArg (fun t => Is t 3) a1).mpr (is_b64 Flat.rep3)
  · exact (congrArg (fun t => Is t 0) a2).mpr h0
  · exact (congrArg (fun t => Is t 0) a3).mpr h0
  · exact (congrArg (fun t => Is t 0) a4).mpr h0
  · exact (congrArg (fun t => Is t 0) a5).mpr h0

theorem norm0 : Is (Core.Resid.norm (E.penRes x0)) 3 := by
  obtain ⟨g0, g1, g2, g3, g4, g5⟩ := gr
  refine norm_three g0 g1 g2 g3 g4 g5 ?_ ?_
  · intro i
    have : eqDefect flatMpcData.ops z0 i = b64 0 := defect i
    exact (congrArg (fun t => Is t 0) this).mpr (is_b64 representable_zero)
  · intro i
    obtain ⟨al, hal, a1, a2⟩ := alpha
    obtain ⟨e, he⟩ := oneSub hal a1 a2 (iy i) (by norm_num) (by norm_num)
    have m1 := (iy i).cmin (iv i)
    rw [min_eq_right (by norm_num)] at m1
    have m2 := Is.zero.cmax (iv i)
    rw [max_self] at m2
    have : Is (penalizedMin E.opts.alpha x0.y x0.v i) 0 := by
      simp only [penalizedMin, Vec.get_ofFn]
      exact (Is.mul_zero hal m1).add_zero (he.mul_zero m2)
    exact this

theorem ys {s : ℝ} (hs : Is E.opts.sigma0 s) (i) : Is (x0.y i + E.opts.sigma0 * (x0.v i - x0.v i)) 4 :=
  (iy i).add_zero (hs.mul_zero ((iv i).sub_zero (iv i)))

theorem innerNorm0 : Is (Core.Resid.norm (E.innerRes x0 x0 E.opts.sigma0)) 3 := by
  obtain ⟨g0, g1, g2, g3, g4, g5⟩ := gr
  obtain ⟨s, hs, -⟩ := sigma
  have hs' : Is E.opts.sigma0 s := hs
  have k : ∀ {g : Binary64} {r : ℝ} {t : Binary64}, Is g r → Is t 0 → Is (g + E.opts.sigma0 * (t - t)) r :=
    fun hg ht => hg.add_zero (hs'.mul_zero (ht.sub_zero ht))
  refine norm_three (k g0 (iz (0 : Fin 6))) (k g1 (iz (1 : Fin 6))) (k g2 (iz (2 : Fin 6))) (k g3 (iz (3 : Fin 6)))
    (k g4 (iz (4 : Fin 6))) (k g5 (iz (5 : Fin 6))) ?_ ?_
  · intro i
    have d0 : Is (eqDefect flatMpcData.ops z0 i) 0 :=
      (congrArg (fun t => Is t 0) (defect i)).mpr (is_b64 representable_zero)
    have : Is ((eqDefect flatMpcData.ops z0 + E.opts.sigma0 * (x0.l - x0.l)) i) 0 := by
      simp only [Vec.get_add, Vec.get_smul, Vec.get_sub]
      exact k d0 (il i)
    exact this
  · intro i
    obtain ⟨al, hal, a1, a2⟩ := alpha
    obtain ⟨e, he⟩ := oneSub hal a1 a2 (ys hs' i) (by norm_num) (by norm_num)
    have p := (ys hs' i).pfb (iv i) hal (by norm_num) (by
      have := rep_nat 16 (by norm_num)
      norm_num at this ⊢
      exact this) he
    have : Is ((E.innerRes x0 x0 E.opts.sigma0).v i) 0 := by
      simp only [Core.Env.innerRes, Core.mkResid, Vec.get_ofFn]
      exact p
    exact this

theorem rep41 : Representable 41 := by exact_mod_cast rep_nat 41 (by norm_num)

theorem forcing : ∃ c, Is E.ops.forcingNorm c ∧ 5 ≤ c ∧ c ≤ 8 := by
  have e : E.ops.forcingNorm = Scalar.sqrt
      (0 + (0 + flatMpcData.q 0 0 * flatMpcData.q 0 0) +
        (0 + flatMpcData.r 0 0 * flatMpcData.r 0 0 + flatMpcData.r 0 1 * flatMpcData.r 0 1) +
        (0 + flatMpcData.d 0 0 * flatMpcData.d 0 0) + (0 + flatMpcData.x0 0 * flatMpcData.x0 0) +
        (0 + flatMpcData.q 1 0 * flatMpcData.q 1 0) +
        (0 + flatMpcData.r 1 0 * flatMpcData.r 1 0 + flatMpcData.r 1 1 * flatMpcData.r 1 1) +
        (0 + flatMpcData.d 1 0 * flatMpcData.d 1 0) + (0 + flatMpcData.c 0 0 * flatMpcData.c 0 0)) := rfl
  have z := Is.zero
  have h0 := is_b64 representable_zero
  have h3 := is_b64 Flat.rep3
  have h4 := is_b64 (representable_neg rep4)
  have s0 := z.zero_add (h0.mul_zero h0)
  have s00 := s0.zero_add (h0.mul_zero h0)
  have s9 := (z.zero_add (h3.mul h3 (c := 9) (by norm_num) Flat.rep9)).add_zero (h0.mul_zero h0)
  have s16 := z.zero_add (h4.mul h4 (c := 16) (by norm_num) Flat.rep16)
  have t := ((((((z.zero_add s0).zero_add s9).add s16 (c := 25) (by norm_num) Flat.rep25).add_zero s0).add_zero
    s0).add_zero s00).add s16 (c := 41) (by norm_num) rep41
  obtain ⟨c, hc, c1, c2⟩ := sqrtC (t.add_zero s0) (by norm_num) (by norm_num)
  have k1 : 6 ≤ √(41 : ℝ) := Real.le_sqrt_of_sq_le (by norm_num)
  have k2 : √(41 : ℝ) ≤ 7 := by rw [Real.sqrt_le_left (by norm_num)]; norm_num
  norm_num at c1 c2
  rw [e, dq, dq, dd, dd, dx0, dc, dr, dr, dr, dr]
  exact ⟨c, hc, by linarith, by linarith⟩

theorem tol : ∃ t, Is E.comboTol t ∧ t ≤ 1 := by
  obtain ⟨a, ha, a1, a2⟩ := lit6
  obtain ⟨r, hr, r1, r2⟩ := lit12
  obtain ⟨f, hf, f1, f2⟩ := forcing
  norm_num at a1 a2 r1 r2
  obtain ⟨g, hg, g1, g2⟩ := addC Is.one hf (by norm_num; linarith) (by norm_num; linarith)
  norm_num at g1 g2
  have q1 : 1 / 10 ^ 12 ≤ r * g := by norm_num; nlinarith
  have q2 : r * g ≤ 1 / 100 := by nlinarith
  obtain ⟨c, hc, hc1⟩ := mulC hr hg (by norm_num at q1 ⊢; linarith) (by norm_num at q2 ⊢; linarith)
  norm_num at hc1 q1 q2
  obtain ⟨e, he, he1⟩ := addC ha hc (by norm_num; linarith [hc1.1]) (by norm_num; linarith [hc1.2])
  norm_num at he1
  exact ⟨e, he, by linarith [he1.2, hc1.2]⟩

theorem ones : ¬Core.normPt (Core.onesPt E) ≤ E.opts.stallTol := by
  obtain ⟨t, ht, -, t2⟩ := Drift.lit 1 true 10 (by norm_num) (by norm_num)
  norm_num at t2
  have ht' : Is E.opts.stallTol t := ht
  have o : Is (1 : Binary64) 1 := Is.one
  have rn : ∀ n : Nat, n ≤ 2 ^ 53 → Representable n := rep_nat
  have o1 := Is.zero.zero_add (o.one_mul o)
  have o2 := o1.add (o.one_mul o) (c := 2) (by norm_num) (by exact_mod_cast rn 2 (by norm_num))
  have o3 := o2.add (o.one_mul o) (c := 3) (by norm_num) (by exact_mod_cast rn 3 (by norm_num))
  have o4 := o3.add (o.one_mul o) (c := 4) (by norm_num) (by exact_mod_cast rn 4 (by norm_num))
  have o5 := o4.add (o.one_mul o) (c := 5) (by norm_num) (by exact_mod_cast rn 5 (by norm_num))
  have o6 := o5.add (o.one_mul o) (c := 6) (by norm_num) (by exact_mod_cast rn 6 (by norm_num))
  have sq : ∀ {x : Binary64} {n : ℝ}, Is x n → 2 ≤ n → n ≤ 6 →
      ∃ q, Is (Scalar.sqrt x * Scalar.sqrt x) q ∧ 8 / 10 ≤ q ∧ q ≤ 16 := by
    intro x n hx n1 n2
    obtain ⟨a, ha, a1, a2⟩ := sqrtC hx (by linarith) (by norm_num; linarith)
    have h2 : 1 ≤ √n := Real.one_le_sqrt.2 (by linarith)
    have h2' : √n ≤ 3 := by rw [Real.sqrt_le_left (by norm_num)]; linarith
    norm_num at a1 a2
    have b1 : 95 / 100 ≤ a := by linarith
    have b2 : a ≤ 35 / 10 := by linarith
    have c1 : 9 / 10 ≤ a * a := by nlinarith
    have c2 : a * a ≤ 15 := by nlinarith
    obtain ⟨q, hq, q1, q2⟩ := mulC ha ha (by norm_num; linarith) (by norm_num; linarith)
    norm_num at q1 q2
    exact ⟨q, hq, by linarith, by linarith⟩
  obtain ⟨a, ha, a1, a2⟩ := sq o6 (by norm_num) (by norm_num)
  obtain ⟨b, hb, b1, b2⟩ := sq o2 (by norm_num) (by norm_num)
  obtain ⟨w, hw, w1, w2⟩ := addC ha hb (by norm_num; linarith) (by norm_num; linarith)
  norm_num at w1 w2
  obtain ⟨u, hu, u1, u2⟩ := addC hw hb (by norm_num; linarith) (by norm_num; linarith)
  norm_num at u1 u2
  obtain ⟨n, hn, n1, -⟩ := sqrtC hu (by linarith) (by norm_num; linarith)
  have k : 1 ≤ √u := Real.one_le_sqrt.2 (by linarith)
  norm_num at n1
  have hn' : Is (Core.normPt (Core.onesPt E)) n := hn
  rw [hn'.le ht']
  norm_num
  linarith

/-- The factorisation of a matrix of size 2 with equal entries. -/
theorem llt2_fails {M : Mat Binary64 2 2} {a : ℝ} (ha : 0 < a) (hra : Representable a) (h00 : Is (M 0 0) (a * a))
    (h10 : Is (M 1 0) (a * a)) (h11 : Is (M 1 1) (a * a)) : (llt M).1 = false := by
  have e : llt M = lltStep 1 (lltStep 0 (true, M)) := rfl
  have p0 := h00.sub_zero ((Is.zero.zero_add Is.zero).zero_add Is.zero)
  have n0 : ¬(M 0 0 - (0 + 0 + 0)) ≤ 0 := by
    rw [p0.le Is.zero]; exact not_le.2 (mul_pos ha ha)
  have e0 : lltStep 0 (true, M) = if M 0 0 - (0 + 0 + 0) ≤ 0 then (false, M) else
    (true, Mat.ofFn fun i j => if j = 0 then if i = 0 then Scalar.sqrt (M 0 0 - (0 + 0 + 0))
      else if 0 < i then (M i 0 - dotIf 2 (fun l => l < 0) (fun l => M i l) (fun l => M 0 l)) /
        Scalar.sqrt (M 0 0 - (0 + 0 + 0)) else M i j else M i j) := rfl
  rw [e, e0, if_neg n0]
  set A : Mat Binary64 2 2 := Mat.ofFn fun i j => if j = 0 then if i = 0 then Scalar.sqrt (M 0 0 - (0 + 0 + 0))
      else if 0 < i then (M i 0 - dotIf 2 (fun l => l < 0) (fun l => M i l) (fun l => M 0 l)) /
        Scalar.sqrt (M 0 0 - (0 + 0 + 0)) else M i j else M i j with hA
  have a10 : A 1 0 = (M 1 0 - (0 + 0 + 0)) / Scalar.sqrt (M 0 0 - (0 + 0 + 0)) := rfl
  have a11 : A 1 1 = M 1 1 := rfl
  clear_value A
  have s := p0.sqrt ha.le rfl hra
  have q := (h10.sub_zero ((Is.zero.zero_add Is.zero).zero_add Is.zero)).div s ha.ne' (c := a) (by field_simp) hra
  rw [← a10] at q
  rw [← a11] at h11
  have pv := h11.sub ((Is.zero.zero_add (q.mul q rfl h11.rep)).add_zero Is.zero) (sub_self _) representable_zero
  have e1 : lltStep 1 (true, A) = if A 1 1 - (0 + A 1 0 * A 1 0 + 0) ≤ 0 then (false, A) else
    (true, Mat.ofFn fun i j => if j = 1 then if i = 1 then Scalar.sqrt (A 1 1 - (0 + A 1 0 * A 1 0 + 0))
      else if 1 < i then (A i 1 - dotIf 2 (fun l => l < 1) (fun l => A i l) (fun l => A 1 l)) /
        Scalar.sqrt (A 1 1 - (0 + A 1 0 * A 1 0 + 0)) else A i j else A i j) := rfl
  rw [e1, if_pos ((pv.le Is.zero).2 le_rfl)]

/-- The barrier weights. -/
theorem bar : ∀ i, Is (pfbGamma E.opts.alpha E.opts.sigma0 x0.y x0.v x0.v i /
    pfbMu E.opts.alpha E.opts.sigma0 x0.y x0.v x0.v i) 0 := by
  intro i
  obtain ⟨al, hal, a1, -⟩ := alpha
  have hal' : Is E.opts.alpha al := hal
  obtain ⟨s, hs, -⟩ := sigma
  have hs' : Is E.opts.sigma0 s := hs
  obtain ⟨t, ht, -, t2⟩ := lit13
  have hv := iv i
  have hy := ys hs' i
  have r := ((hy.mul hy (c := 16) (by norm_num) Flat.rep16).add_zero (hv.mul_zero hv)).sqrt (c := 4) (by norm_num)
    (by norm_num) rep4
  have c1 : ¬Scalar.sqrt ((x0.y i + E.opts.sigma0 * (x0.v i - x0.v i)) *
      (x0.y i + E.opts.sigma0 * (x0.v i - x0.v i)) + x0.v i * x0.v i) < (1e-13 : Binary64) := by
    rw [r.lt ht]
    norm_num at t2 ⊢
    linarith
  have c2 : ¬(0 < x0.y i + E.opts.sigma0 * (x0.v i - x0.v i) ∧ 0 < x0.v i) := by
    rw [Is.zero.lt hv]
    exact fun h => lt_irrefl _ h.2
  have g1 : Is (pfbGamma E.opts.alpha E.opts.sigma0 x0.y x0.v x0.v i) 0 := by
    unfold pfbGamma pfbGradient
    simp only [if_neg c1, if_neg c2]
    exact hal'.mul_zero (Is.one.sub (hy.div r (by norm_num) (div_self (by norm_num)) representable_one)
      (sub_self 1) representable_zero)
  have m1 : Is (pfbMu E.opts.alpha E.opts.sigma0 x0.y x0.v x0.v i) al := by
    have e : pfbMu E.opts.alpha E.opts.sigma0 x0.y x0.v x0.v i =
      (pfbGradient E.opts.alpha (x0.y i + E.opts.sigma0 * (x0.v i - x0.v i)) (x0.v i)).2 + E.opts.sigma0 *
        pfbGamma E.opts.alpha E.opts.sigma0 x0.y x0.v x0.v i := rfl
    rw [e]
    refine Is.add_zero ?_ (hs'.mul_zero g1)
    unfold pfbGradient
    simp only [if_neg c1, if_neg c2]
    exact hal'.mul_one (Is.one.sub_zero (hv.div r (by norm_num) (zero_div _) representable_zero))
  norm_num at a1
  exact g1.div m1 (by linarith) (zero_div _) representable_zero

/-! ### The recursion fails at stage 0 -/

theorem divC {x y : Binary64} {a b : ℝ} (h : Is x a) (h' : Is y b) (hb : b ≠ 0) (h0 : 1 / 10 ^ 20 ≤ a / b)
    (h1 : a / b ≤ 10 ^ 30) :
    ∃ c, Is (x / y) c ∧ a / b - 1 / 10 ^ 15 * (a / b) ≤ c ∧ c ≤ a / b + 1 / 10 ^ 15 * (a / b) := by
  have : ∃ c, Is (x / y) c ∧ |c - a / b| ≤ 1e-15 * (a / b) := by
    show ∃ c, Is (Binary64.round (x.x / y.x)) c ∧ _
    rw [h, h', up_div _ hb]
    exact round_close (Drift.two500.1.trans (by norm_num at h0 ⊢; exact h0))
      (le_trans (by norm_num at h1 ⊢; exact h1) Drift.two500.2)
  obtain ⟨c, hc, k⟩ := this
  rw [abs_le] at k
  norm_num at k ⊢
  exact ⟨c, hc, by linarith [k.1], by linarith [k.2]⟩

theorem lowerSolve1 (M : Mat Binary64 1 1) (x : Vec Binary64 1) : lowerSolve M x 0 = (x 0 - (0 + 0)) / M 0 0 := by
  have : lowerSolve M x = x.set 0 ((x 0 - (0 + 0)) / M 0 0) := by
    unfold lowerSolve forFin
    rw [Fin.foldl_succ, Fin.foldl_zero]
    rfl
  rw [this, Vec.get_set, if_pos rfl]

theorem lowerTSolve1 (M : Mat Binary64 1 1) (x : Vec Binary64 1) : lowerTSolve M x 0 = (x 0 - (0 + 0)) / M 0 0 := by
  have : lowerTSolve M x = x.set 0 ((x 0 - (0 + 0)) / M 0 0) := by
    unfold lowerTSolve forFinRev
    rw [Fin.foldr_succ, Fin.foldr_zero]
    rfl
  rw [this, Vec.get_set, if_pos rfl]

theorem stageInv1 (L : Mat Binary64 1 1) : RiccatiWs.stageInv L 0 0 = ((1 - (0 + 0)) / L 0 0 - (0 + 0)) / L 0 0 := by
  have e1 : RiccatiWs.stageInv L 0 0 = lowerTSolve L ((lowerSolveMat L (Mat.identity : Mat Binary64 1 1)).col 0) 0 := rfl
  have e2 : (lowerSolveMat L (Mat.identity : Mat Binary64 1 1)).col 0 0 =
    lowerSolve L ((Mat.identity : Mat Binary64 1 1).col 0) 0 := rfl
  have e3 : (Mat.identity : Mat Binary64 1 1).col 0 0 = (1 : Binary64) := rfl
  rw [e1, lowerTSolve1, e2, lowerSolve1, e3]

/-- The inverse computed from the first factor. -/
theorem inv0 : ∃ c, Is (RiccatiWs.stageInv (Scalar.sqrt E.opts.sigma0 * (Mat.identity : Mat Binary64 1 1)) 0 0) c ∧
    1 ≤ c ∧ c ≤ 10 ^ 10 := by
  obtain ⟨s, hs, s1, s2⟩ := sigma
  have hs' : Is E.opts.sigma0 s := hs
  norm_num at s1 s2
  have k1 : 1 / 20000 ≤ √s := Real.le_sqrt_of_sq_le (by norm_num; linarith)
  have k2 : √s ≤ 1 / 5000 := by rw [Real.sqrt_le_left (by norm_num)]; norm_num; linarith
  obtain ⟨r, hr, k⟩ := hs'.sqrt_close (Drift.two500.1.trans (by norm_num at k1 ⊢; linarith))
    (le_trans (by norm_num at k2 ⊢; linarith) Drift.two500.2)
  rw [abs_le] at k
  norm_num at k k1 k2
  have r1 : 1 / 40000 ≤ r := by linarith [k.1]
  have r2 : r ≤ 1 / 1000 := by linarith [k.2]
  have rp : 0 < r := by linarith
  have hL : Is ((Scalar.sqrt E.opts.sigma0 * (Mat.identity : Mat Binary64 1 1)) 0 0) r := by
    have e : (Scalar.sqrt E.opts.sigma0 * (Mat.identity : Mat Binary64 1 1)) 0 0 = Scalar.sqrt E.opts.sigma0 * 1 := rfl
    rw [e]
    exact hr.mul_one Is.one
  rw [stageInv1]
  have z := Is.zero.zero_add Is.zero
  have d1 : 1000 ≤ 1 / r := by rw [le_div_iff₀ rp]; linarith
  have d2 : 1 / r ≤ 40000 := by rw [div_le_iff₀ rp]; linarith
  obtain ⟨q, hq, q1, q2⟩ := divC (Is.one.sub_zero z) hL rp.ne' (by norm_num at d1 ⊢; linarith) (by norm_num at d2 ⊢; linarith)
  norm_num at q1 q2 d1 d2
  have q3 : 999 ≤ q := by linarith
  have q4 : q ≤ 40001 := by linarith
  have d3 : 999 ≤ q / r := by rw [le_div_iff₀ rp]; nlinarith
  have d4 : q / r ≤ 2000000000 := by rw [div_le_iff₀ rp]; nlinarith
  obtain ⟨c, hc, c1, c2⟩ := divC (hq.sub_zero z) hL rp.ne' (by norm_num; linarith) (by norm_num; linarith)
  norm_num at c1 c2
  exact ⟨c, hc, by linarith, by norm_num; linarith⟩

/-- The factorisation of a matrix of size 1. -/
theorem llt1 {M : Mat Binary64 1 1} {a : ℝ} (h : Is (M 0 0) a) (h1 : 1 ≤ a) (h2 : a ≤ 10 ^ 20) :
    ∃ c, Is ((llt M).2 0 0) c ∧ 1 / 2 ≤ c := by
  have p := h.sub_zero (Is.zero.zero_add Is.zero)
  have e : llt M = if M 0 0 - (0 + 0) ≤ 0 then (false, M) else
    (true, Mat.ofFn fun i j => if j = 0 then if i = 0 then Scalar.sqrt (M 0 0 - (0 + 0))
      else if 0 < i then (M i 0 - dotIf 1 (fun l => l < 0) (fun l => M i l) (fun l => M 0 l)) /
        Scalar.sqrt (M 0 0 - (0 + 0)) else M i j else M i j) := rfl
  have n0 : ¬(M 0 0 - (0 + 0)) ≤ 0 := by rw [p.le Is.zero]; linarith
  rw [e, if_neg n0]
  obtain ⟨c, hc, c1, -⟩ := sqrtC p h1 h2
  have k : 1 ≤ √a := Real.one_le_sqrt.2 h1
  norm_num at c1
  exact ⟨c, hc, by linarith⟩

/-- The multipliers' weights, stage by stage. -/
noncomputable abbrev Gam : Vec Binary64 ((1 + 1) * 1) := Vec.ofFn fun i =>
  pfbGamma E.opts.alpha E.opts.sigma0 x0.y x0.v x0.v i / pfbMu E.opts.alpha E.opts.sigma0 x0.y x0.v x0.v i

theorem iGam (k : Fin (1 + 1)) (j : Fin 1) : Is (colBlock Gam k j) 0 := by
  rw [colBlock_get, Vec.get_ofFn]
  exact bar _

theorem iE (k i j) : Is (flatMpcData.E k i j) 0 := by rw [dE]; exact is_b64 representable_zero
theorem iL (k i j) : Is (flatMpcData.L k i j) 0 := by rw [dL]; exact is_b64 representable_zero

theorem barQ0 : ∃ c, Is (RiccatiWs.barQ flatMpcData E.opts.sigma0 Gam 0 0 0) c ∧ 1 / 2 ≤ c ∧ c ≤ 2 := by
  obtain ⟨s, hs, s1, s2⟩ := sigma
  have hs' : Is E.opts.sigma0 s := hs
  norm_num at s1 s2
  have e : RiccatiWs.barQ flatMpcData E.opts.sigma0 Gam 0 0 0 = flatMpcData.Q 0 0 0 + E.opts.sigma0 * 1 +
      (0 + flatMpcData.E 0 0 0 * (colBlock Gam 0 0 * flatMpcData.E 0 0 0)) := rfl
  rw [e, dQ]
  obtain ⟨c, hc, c1, c2⟩ := addC (is_b64 representable_one) (hs'.mul_one Is.one) (by norm_num; linarith)
    (by norm_num; linarith)
  norm_num at c1 c2
  refine ⟨c, hc.add_zero (Is.zero.zero_add ((iE 0 0 0).mul_zero ((iGam 0 0).mul_zero (iE 0 0 0)))), ?_, ?_⟩ <;>
    linarith

theorem barR0 (i j : Fin 2) : Is (RiccatiWs.barR flatMpcData E.opts.sigma0 Gam 0 i j) (2 ^ 30) := by
  obtain ⟨s, hs, s1, s2⟩ := sigma
  have hs' : Is E.opts.sigma0 s := hs
  norm_num at s1 s2
  have e : RiccatiWs.barR flatMpcData E.opts.sigma0 Gam 0 i j = flatMpcData.R 0 i j + E.opts.sigma0 *
      (if i = j then 1 else 0) + (0 + flatMpcData.L 0 0 i * (colBlock Gam 0 0 * flatMpcData.L 0 0 j)) := by
    fin_cases i <;> fin_cases j <;> rfl
  have hR : Is (flatMpcData.R 0 i j) (2 ^ 30) := by rw [dR]; exact is_b64 rep30
  rw [e]
  refine Is.add_zero ?_ (Is.zero.zero_add ((iL 0 0 i).mul_zero ((iGam 0 0).mul_zero (iL 0 0 j))))
  by_cases h : i = j
  · rw [if_pos h]
    exact hR.add' (hs'.mul_one Is.one) (Drift.round_30 (by linarith) (by norm_num; linarith)) rep30
  · rw [if_neg h]
    exact hR.add_zero (hs'.mul_zero Is.zero)

theorem barS0 (i : Fin 2) : Is (RiccatiWs.barS flatMpcData Gam 0 i 0) 0 := by
  have e : RiccatiWs.barS flatMpcData Gam 0 i 0 = flatMpcData.S 0 i 0 +
      (0 + flatMpcData.L 0 0 i * (colBlock Gam 0 0 * flatMpcData.E 0 0 0)) := by
    fin_cases i <;> rfl
  rw [e, dS]
  exact (is_b64 representable_zero).add_zero (Is.zero.zero_add ((iL 0 0 i).mul_zero ((iGam 0 0).mul_zero (iE 0 0 0))))

theorem stage_fails (w : RiccatiWs Binary64 1 1 2 1)
    (hQ : LowerEq (w.Q 0) (RiccatiWs.barQ flatMpcData E.opts.sigma0 Gam 0))
    (hR : LowerEq (w.R 0) (RiccatiWs.barR flatMpcData E.opts.sigma0 Gam 0))
    (hS : w.S 0 = RiccatiWs.barS flatMpcData Gam 0)
    (hL : w.L 0 = Scalar.sqrt E.opts.sigma0 * (Mat.identity : Mat Binary64 1 1)) :
    (RiccatiWs.factorStage (some (flatMpcData.A 0)) 0 w).1 = false := by
  rw [RiccatiWs.factorStage_some]
  obtain ⟨a, ha, a1, a2⟩ := barQ0
  obtain ⟨b, hb, b1, b2⟩ := inv0
  rw [← hQ 0 0 le_rfl] at ha
  rw [← hL] at hb
  obtain ⟨m, hm, m1, m2⟩ := addC ha hb (by norm_num; linarith) (by norm_num at b2 ⊢; linarith)
  norm_num at m1 m2 b2
  have hM : Is (((w.M 0).assignLower (w.Q 0 + RiccatiWs.stageInv (w.L 0))) 0 0) m := hm
  obtain ⟨c, hc, c1⟩ := llt1 hM (by linarith) (by norm_num; linarith)
  set X := llt ((w.M 0).assignLower (w.Q 0 + RiccatiWs.stageInv (w.L 0)))
  have hSM : ∀ i, Is (solveOnTheRightT X.2 (w.S 0) i 0) 0 := by
    intro i
    have e : solveOnTheRightT X.2 (w.S 0) i 0 = lowerSolve X.2 ((w.S 0).row i) 0 := by
      fin_cases i <;> rfl
    have hS0 : Is ((w.S 0).row i 0) 0 := by
      rw [hS]
      exact barS0 i
    rw [e, lowerSolve1]
    exact (hS0.sub_zero (Is.zero.zero_add Is.zero)).div hc (by linarith) (zero_div _) representable_zero
  have hSG : ∀ i j : Fin 2, j ≤ i → Is ((w.R 0 - solveOnTheRightT X.2 (w.S 0) *
      (solveOnTheRightT X.2 (w.S 0)).transpose) i j) (2 ^ 15 * 2 ^ 15) := by
    intro i j hij
    have e : (w.R 0 - solveOnTheRightT X.2 (w.S 0) * (solveOnTheRightT X.2 (w.S 0)).transpose) i j =
        w.R 0 i j - (0 + solveOnTheRightT X.2 (w.S 0) i 0 * solveOnTheRightT X.2 (w.S 0) j 0) := by
      fin_cases i <;> fin_cases j <;> rfl
    rw [e, hR i j hij, ← pow_add]
    exact (barR0 i j).sub_zero (Is.zero.zero_add ((hSM i).mul_zero (hSM j)))
  have hf := llt2_fails (a := 2 ^ 15) (by norm_num) (repP 15 (by norm_num)) (hSG 0 0 le_rfl) (hSG 1 0 (by decide))
    (hSG 1 1 le_rfl)
  dsimp only
  split
  · exact hf
  · rfl

/-- If stage 0 of a horizon of length 1 fails, so does the factorisation. -/
theorem initPair_fails {K : Type} [Scalar K] {nx nu nc : Nat} (d : MpcData K 1 nx nu nc)
    (x xbar : Point K ((1 + 1) * (nx + nu)) ((1 + 1) * nx) ((1 + 1) * nc)) (sigma : K) (w : RiccatiWs K 1 nx nu nc)
    (h : (RiccatiWs.factorStage (some (d.A 0)) 0 { forFin (1 + 1) (RiccatiWs.augment d sigma)
      (RiccatiWs.barrier x xbar sigma w) with
        L := (forFin (1 + 1) (RiccatiWs.augment d sigma) (RiccatiWs.barrier x xbar sigma w)).L.set 0
          (Scalar.sqrt sigma * (Mat.identity : Mat K nx nx)) }).1 = false) :
    (RiccatiWs.initPair d x xbar sigma w).1 = false := by
  unfold RiccatiWs.initPair
  generalize forFin (1 + 1) (RiccatiWs.augment d sigma) (RiccatiWs.barrier x xbar sigma w) = p at h ⊢
  have e : ∀ q : RiccatiWs K 1 nx nu nc, (RiccatiWs.factorStage (some (d.A 0)) 0 q).1 = false →
      (forFin 1 (RiccatiWs.factorStep d sigma) (true, q)).1 = false := by
    intro q hq
    unfold forFin
    rw [Fin.foldl_succ, Fin.foldl_zero]
    have hq' : (RiccatiWs.factorStage (some (d.A 0)) (Fin.castSucc 0) q).1 = false := hq
    simp only [RiccatiWs.factorStep, Bool.not_true, if_false, Bool.false_eq_true, hq', Bool.not_false, if_true]
  have h1 := e _ h
  dsimp only
  rw [h1]
  rfl

theorem factor_fails : E.factor x0 x0 E.opts.sigma0 = .ok none := by
  obtain ⟨s, hs, s1, -⟩ := sigma
  have hs' : Is E.opts.sigma0 s := hs
  norm_num at s1
  show RiccatiWs.factor flatMpcData E.opts.alpha x0 x0 E.opts.sigma0 = _
  unfold RiccatiWs.factor
  rw [if_neg (by rw [hs'.le Is.zero]; linarith), if_neg]
  have key := initPair_fails flatMpcData x0 x0 E.opts.sigma0 (RiccatiWs.zero flatMpcData E.opts.alpha) ?_
  · rw [key]; decide
  obtain ⟨Q, R, S, E1, L1, e, h⟩ := RiccatiWs.augment_loop flatMpcData E.opts.sigma0
    (RiccatiWs.barrier x0 x0 E.opts.sigma0 (RiccatiWs.zero flatMpcData E.opts.alpha))
  have e0 := h 0
  have hG : (RiccatiWs.barrier x0 x0 E.opts.sigma0 (RiccatiWs.zero flatMpcData E.opts.alpha)).Gamma = Gam := by
    ext i
    simp only [RiccatiWs.barrier, Gam, Vec.get_ofFn]
    rfl
  rw [hG] at e0
  refine stage_fails _ ?_ ?_ ?_ ?_
  · rw [e]; exact e0.1
  · rw [e]; exact e0.2.1
  · rw [e]; exact e0.2.2
  · simp only [Vec.get_set_same]

theorem run (ws : FeasWs Binary64 ((1 + 1) * (1 + 2)) ((1 + 1) * 1) ((1 + 1) * 1)) :
    (Core.solve E ws z0 l0 v0).2 = .error Core.factorFailed := by
  obtain ⟨c2, h2, a1, a2⟩ := lit2
  obtain ⟨c12, h12, b1, b2⟩ := lit12
  obtain ⟨tl, htl, tl1⟩ := tol
  obtain ⟨de, hde, d1, d2⟩ := delta
  norm_num at a1 a2 b1 b2 d1 d2
  obtain ⟨t0, e0, i0⟩ := norm0.saturate h12 h2 (by linarith)
  rw [min_eq_right (by linarith), max_eq_left (by linarith)] at i0
  have q1 : 1 / 1000 ≤ c2 * de := by nlinarith
  have q2 : c2 * de ≤ 1 := by nlinarith
  obtain ⟨m, hm, -⟩ := mulC i0 hde (by norm_num; linarith) (by norm_num; linarith)
  obtain ⟨t1, e1, -⟩ := hm.saturate h12 norm0 (by linarith)
  refine Core.solve_factor_fails (E := E) (by show (1 : Int) ≤ 30; norm_num) (by show (1 : Int) ≤ 50; norm_num)
    (by show (1 : Int) ≤ 200; norm_num) e0 e1 ?_ ones ?_ factor_fails
  · intro h
    have := (norm0.le htl).1 h
    linarith
  · rintro (h | h)
    · exact absurd ((norm0.lt norm0).1 h.2) (lt_irrefl _)
    · have := (innerNorm0.le h12).1 h
      linarith

theorem convex : flatOcp.Convex where
  Qsymm _ := Matrix.IsSymm.ext fun _ _ => rfl
  Rsymm _ := Matrix.IsSymm.ext fun _ _ => rfl
  nonneg i x u := by
    simp only [Matrix.mulVec, dotProduct, flatOcp, Fin.sum_univ_two, Fin.sum_univ_one]
    nlinarith [sq_nonneg (u 0 + u 1), sq_nonneg (x 0)]

/-- A new solver. -/
noncomputable def solver (junk : MpcJunk Binary64) : FBstabMpc Binary64 :=
  ⟨1, 1, 2, 1, AlgMem.fresh (ls := riccatiSolver Binary64 1 1 2 1)
    { junk.lin 1 1 2 1 with alpha := 0.95, data := none } (junk.feas _ _ _)⟩

/-- The optimal controls of stage 0. -/
noncomputable def optX : Fin (1 + 1) → Fin 1 → ℝ := ![fun _ => 0, fun _ => -3 / 2]
noncomputable def optU : Fin (1 + 1) → Fin 2 → ℝ := ![![-3 / 2 ^ 32 - 3 / 4, -3 / 2 ^ 32 + 3 / 4], fun _ => 0]

theorem cost (x : Fin (1 + 1) → Fin 1 → ℝ) (u : Fin (1 + 1) → Fin 2 → ℝ) : flatOcp.cost x u =
    1 / 2 * (x 0 0 ^ 2 + 2 ^ 30 * (u 0 0 + u 0 1) ^ 2) + 3 * u 0 0 +
      1 / 2 * (x 1 0 ^ 2 + 2 ^ 30 * (u 1 0 + u 1 1) ^ 2) := by
  unfold Ocp.cost
  rw [Fin.sum_univ_two]
  simp only [Matrix.mulVec, dotProduct, Fin.sum_univ_two, Fin.sum_univ_one]
  simp only [flatOcp, Matrix.cons_val_zero, Matrix.cons_val_one]
  ring

theorem next (u : Fin (1 + 1) → Fin 2 → ℝ) (x : Fin (1 + 1) → Fin 1 → ℝ) (h : flatOcp.Admissible x u) :
    x 0 0 = 0 ∧ x 1 0 = u 0 0 - u 0 1 := by
  have h0 := congrFun h.init 0
  have h1 := congrFun (h.dynamics 0) 0
  simp only [Pi.add_apply, Matrix.mulVec, dotProduct, Fin.sum_univ_two, Fin.sum_univ_one] at h1
  simp only [flatOcp, Matrix.cons_val_zero, Matrix.cons_val_one] at h0 h1
  refine ⟨h0, ?_⟩
  have e : x 1 0 = 0 * x 0 0 + (1 * u 0 0 + -1 * u 0 1) + 0 := h1
  linarith

theorem optimal : flatOcp.Optimal optX optU where
  admissible :=
    { init := by funext i; rfl
      dynamics := by
        intro i
        obtain rfl : i = 0 := Subsingleton.elim _ _
        funext j
        obtain rfl : j = 0 := Subsingleton.elim _ _
        simp only [Pi.add_apply, Matrix.mulVec, dotProduct, Fin.sum_univ_two, Fin.sum_univ_one]
        simp [flatOcp, optX, optU]
        norm_num
      constraints := by
        intro i j
        simp [Matrix.mulVec, dotProduct, flatOcp] }
  le x u h := by
    obtain ⟨e0, e1⟩ := next u x h
    rw [cost, cost, e0, e1]
    have : optX 0 0 = 0 ∧ optX 1 0 = -3 / 2 ∧ optU 0 0 = -3 / 2 ^ 32 - 3 / 4 ∧ optU 0 1 = -3 / 2 ^ 32 + 3 / 4 ∧
      optU 1 0 = 0 ∧ optU 1 1 = 0 := ⟨rfl, rfl, rfl, rfl, rfl, rfl⟩
    obtain ⟨a, b, c, d, e, f⟩ := this
    rw [a, b, c, d, e, f]
    nlinarith [sq_nonneg (u 0 0 + u 0 1 + 3 / 2 ^ 31), sq_nonneg (u 0 0 - u 0 1 + 3 / 2), sq_nonneg (u 1 0 + u 1 1)]

end FlatMpc

/-- C13 is a property of exact arithmetic: in IEEE double precision a new solver with the default options throws on
the convex control problem `min 2^29 (u1 + u2)^2 + 3 u1 + 1/2 x1^2`, `x1 = u1 - u2`, which has a solution.  The
regularisation `sigma0 = 1e-8` is lost when it is added to the diagonal of `R`, and the second pivot is exactly zero. -/
theorem C13_not_binary64_mpc (junk : MpcJunk Binary64) :
    rounding.ReadsMpc (flatMpc.toData 1 1 2 1) flatOcp ∧ flatOcp.Convex ∧ (∃ x u, flatOcp.Optimal x u) ∧
    MpcFits 1 1 2 1 flatMpc flatMpcGuess ∧
    ∃ s, FBstabMpc.new junk 1 1 2 1 = .ok s ∧ (s.solve flatMpc flatMpcGuess).result =
      .error (.runtimeError "In FBstabAlgorithm::Solve: LinearSolver::Initialize failed.") := by
  refine ⟨FlatMpc.reads, FlatMpc.convex, ⟨_, _, FlatMpc.optimal⟩, FlatMpc.fits,
    FlatMpc.solver junk, FBstabMpc.new_ok junk (N := 1) (nx := 1) (nu := 2) (nc := 1) (by norm_num) (by norm_num)
      (by norm_num) (by norm_num) (by decide) (by decide), ?_⟩
  have hf : MpcFits (FlatMpc.solver junk).N (FlatMpc.solver junk).nx (FlatMpc.solver junk).nu (FlatMpc.solver junk).nc
    flatMpc flatMpcGuess := FlatMpc.fits
  exact ((FBstabMpc.solve_computes rounding.beqOk.zero hf ⟨rfl, rfl, rfl, rfl⟩).error _
    (FlatMpc.run (junk.feas _ _ _))).1

end Fbstab
