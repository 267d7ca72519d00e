import Verif.Props.RoundingExamples
import Verif.Proofs.WitnessMpc

/-!
# Cases that meet the hypotheses of C62: an optimal control problem in binary64
-/

namespace Fbstab
open Binary64

namespace Binary64

/-- `x` is a finite number. -/
def Finite (x : Binary64) : Prop := ∃ r, Representable r ∧ x = b64 r

theorem finite_b64 {r : ℝ} (h : Representable r) : Finite (b64 r) := ⟨r, h, rfl⟩

theorem finite_mul_zero {x : Binary64} (h : Finite x) : x * b64 0 = b64 0 := by
  obtain ⟨r, hr, rfl⟩ := h
  rw [b64_mul hr representable_zero, mul_zero]

theorem zero_add_zero : b64 0 + b64 0 = b64 0 := by rw [b64_add representable_zero representable_zero, add_zero]
theorem zero_sub_zero : b64 0 - b64 0 = b64 0 := by rw [b64_sub representable_zero representable_zero, sub_zero]

theorem sum_zero {n : Nat} {x y : Fin n → Binary64} (h : ∀ i, x i * y i = b64 0) : dotFin n x y = b64 0 := by
  rw [Binary64.leftToRight.dotFin]
  induction n with
  | zero => exact b64_zero
  | succ n ih => rw [sumFin_succ, ih fun i => h _, h, zero_add_zero]

theorem mulVec_zero {r c : Nat} {M : Mat Binary64 r c} {x : Vec Binary64 c} (hM : ∀ i j, Finite (M i j))
    (hx : ∀ j, x j = b64 0) (i : Fin r) : (M * x) i = b64 0 := by
  rw [Mat.get_mulVec]
  exact sum_zero fun j => by rw [hx]; exact finite_mul_zero (hM i j)

theorem mulVecT_zero {r c : Nat} {M : Mat Binary64 r c} {x : Vec Binary64 r} (hM : ∀ i j, Finite (M i j))
    (hx : ∀ j, x j = b64 0) (i : Fin c) : (M.transpose * x) i = b64 0 :=
  mulVec_zero (fun i j => by rw [Mat.get_transpose]; exact hM j i) hx i

theorem sqrt_zero : Scalar.sqrt (b64 0) = b64 0 := by rw [b64_sqrt representable_zero le_rfl, Real.sqrt_zero]

theorem norm_zero {n : Nat} {x : Vec Binary64 n} (h : ∀ i, x i = b64 0) : x.norm = b64 0 := by
  unfold Vec.norm Vec.squaredNorm
  rw [sum_zero fun i => by rw [h]; exact finite_mul_zero (finite_b64 representable_zero), sqrt_zero]

theorem finite_one : Finite 1 := b64_one ▸ finite_b64 representable_one
theorem finite_neg_one : Finite (-1) := by
  rw [b64_one, b64_neg representable_one]; exact finite_b64 (representable_neg representable_one)
theorem finite_neg_neg_one : Finite (- -1) := by
  rw [b64_one, b64_neg representable_one, b64_neg (representable_neg representable_one), neg_neg]
  exact finite_b64 representable_one

end Binary64

/-- A sequence with the same number everywhere. -/
noncomputable def constSeq (n : Nat) (r : ℝ) : MapSequence Binary64 :=
  ⟨some (Array.replicate n (b64 r)), n, 1, 1, by simp, by simp⟩

theorem constSeq_mat {n : Nat} {r : ℝ} (k : Fin n) (i j : Fin 1) : (constSeq n r).toMat 1 1 k i j = b64 r := by
  obtain rfl : i = 0 := Subsingleton.elim _ _
  obtain rfl : j = 0 := Subsingleton.elim _ _
  simp [constSeq, MapSequence.toMat]

theorem constSeq_vec {n : Nat} {r : ℝ} (k : Fin n) (i : Fin 1) : (constSeq n r).toVec 1 k i = b64 r := by
  obtain rfl : i = 0 := Subsingleton.elim _ _
  simp [constSeq, MapSequence.toVec]

/-- Two stages, one state, one control, one constraint; at rest. -/
def restOcp : Ocp 1 1 1 1 where
  Q := fun _ _ _ => 3
  R := fun _ _ _ => 1
  S := fun _ _ _ => 1
  q := fun _ _ => 0
  r := fun _ _ => 0
  A := fun _ _ _ => 1
  B := fun _ _ _ => 1
  c := fun _ _ => 0
  E := fun _ _ _ => 1
  L := fun _ _ _ => 1
  d := fun _ _ => -4
  x0 := fun _ => 0

/-- The same in binary64. -/
noncomputable def restProblem : MpcProblem Binary64 where
  Q := constSeq 2 3
  R := constSeq 2 1
  S := constSeq 2 1
  q := constSeq 2 0
  r := constSeq 2 0
  A := constSeq 1 1
  B := constSeq 1 1
  c := constSeq 1 0
  E := constSeq 2 1
  L := constSeq 2 1
  d := constSeq 2 (-4)
  x0 := ⟨#[b64 0]⟩

/-- The guess 0. -/
noncomputable def restGuess : CallerVar Binary64 :=
  ⟨false, ⟨#[b64 0, b64 0, b64 0, b64 0]⟩, ⟨#[b64 0, b64 0]⟩, ⟨#[b64 0, b64 0]⟩, ⟨#[b64 0, b64 0]⟩⟩

/-- A default solver in binary64. -/
noncomputable def restSolver (junk : MpcJunk Binary64) : FBstabMpc Binary64 :=
  ⟨1, 1, 1, 1, AlgMem.fresh (ls := riccatiSolver Binary64 1 1 1 1)
    { junk.lin 1 1 1 1 with alpha := 0.95, data := none } (junk.feas _ _ _)⟩

theorem rest_reads : rounding.ReadsMpc (restProblem.toData 1 1 1 1) restOcp := by
  have r1 := representable_one
  have r0 := representable_zero
  constructor
  all_goals first
    | (intro k i j; simp only [restProblem, MpcProblem.toData, Vec.get_ofFn]; rw [constSeq_mat]
       first | exact b64_toReal r1 | exact b64_toReal rep3)
    | (intro k i; simp only [restProblem, MpcProblem.toData, Vec.get_ofFn]; rw [constSeq_vec]
       first | exact b64_toReal r0 | exact b64_toReal (representable_neg rep4))
    | skip
  intro i
  obtain rfl : i = 0 := Subsingleton.elim _ _
  exact b64_toReal r0

theorem rest_fits : MpcFits 1 1 1 1 restProblem restGuess := by
  constructor <;> first | exact ⟨rfl, rfl, rfl⟩ | exact ⟨rfl, rfl⟩ | rfl

theorem rest_z (i : Fin 4) : restGuess.z.toVec 4 i = b64 0 := by
  fin_cases i <;> rfl
theorem rest_l (i : Fin 2) : restGuess.l.toVec 2 i = b64 0 := by
  fin_cases i <;> rfl
theorem rest_v (i : Fin 2) : restGuess.v.toVec 2 i = b64 0 := by
  fin_cases i <;> rfl

section
variable {z : Vec Binary64 ((1 + 1) * (1 + 1))} {l v : Vec Binary64 ((1 + 1) * 1)}
  (hz : ∀ i, z i = b64 0) (hl : ∀ i, l i = b64 0) (hv : ∀ i, v i = b64 0)
include hz

theorem rest_x (i : Fin (1 + 1)) (j : Fin 1) : xBlock z i j = b64 0 := by rw [xBlock_get]; exact hz _
theorem rest_u (i : Fin (1 + 1)) (j : Fin 1) : uBlock z i j = b64 0 := by rw [uBlock_get]; exact hz _

include hl hv in
theorem rest_grad (a : Fin ((1 + 1) * (1 + 1))) :
    gradLagrangian (restProblem.toData 1 1 1 1).ops z l v a = b64 0 := by
  have hb := rounding.beqOk
  have r1 := finite_b64 representable_one
  have z0 := finite_b64 representable_zero
  have hQ : ∀ k i j, Finite ((restProblem.toData 1 1 1 1).Q k i j) := fun k i j => by
    simp only [restProblem, MpcProblem.toData, Vec.get_ofFn]; rw [constSeq_mat]; exact finite_b64 rep3
  have hR : ∀ k i j, Finite ((restProblem.toData 1 1 1 1).R k i j) := fun k i j => by
    simp only [restProblem, MpcProblem.toData, Vec.get_ofFn]; rw [constSeq_mat]; exact r1
  have hS : ∀ k i j, Finite ((restProblem.toData 1 1 1 1).S k i j) := fun k i j => by
    simp only [restProblem, MpcProblem.toData, Vec.get_ofFn]; rw [constSeq_mat]; exact r1
  have hA : ∀ k i j, Finite ((restProblem.toData 1 1 1 1).A k i j) := fun k i j => by
    simp only [restProblem, MpcProblem.toData, Vec.get_ofFn]; rw [constSeq_mat]; exact r1
  have hB : ∀ k i j, Finite ((restProblem.toData 1 1 1 1).B k i j) := fun k i j => by
    simp only [restProblem, MpcProblem.toData, Vec.get_ofFn]; rw [constSeq_mat]; exact r1
  have hE : ∀ k i j, Finite ((restProblem.toData 1 1 1 1).E k i j) := fun k i j => by
    simp only [restProblem, MpcProblem.toData, Vec.get_ofFn]; rw [constSeq_mat]; exact r1
  have hL : ∀ k i j, Finite ((restProblem.toData 1 1 1 1).L k i j) := fun k i j => by
    simp only [restProblem, MpcProblem.toData, Vec.get_ofFn]; rw [constSeq_mat]; exact r1
  have hq : ∀ k i, (restProblem.toData 1 1 1 1).q k i = b64 0 := fun k i => by
    simp only [restProblem, MpcProblem.toData, Vec.get_ofFn]; rw [constSeq_vec]
  have hr : ∀ k i, (restProblem.toData 1 1 1 1).r k i = b64 0 := fun k i => by
    simp only [restProblem, MpcProblem.toData, Vec.get_ofFn]; rw [constSeq_vec]
  have hl' : ∀ (k : Fin (1 + 1)) (j : Fin 1), colBlock l k j = b64 0 := fun k j => by rw [colBlock_get]; exact hl _
  have hv' : ∀ (k : Fin (1 + 1)) (j : Fin 1), colBlock v k j = b64 0 := fun k j => by rw [colBlock_get]; exact hv _
  have m1 : (-1 : Binary64) * b64 0 = b64 0 := finite_mul_zero finite_neg_one
  have m2 : (1 : Binary64) * b64 0 = b64 0 := finite_mul_zero finite_one
  rcases xuIdx_surj a with ⟨i, j, rfl⟩ | ⟨i, j, rfl⟩
  · rcases Rounding.mpc_grad_x (d := restProblem.toData 1 1 1 1) hb z l v i j with ⟨i', -, e⟩ | ⟨-, e⟩
    · rw [e, hq, m2, b64_zero, mulVec_zero (hQ i) (rest_x hz i), mulVecT_zero (hS i) (rest_u hz i), hl, m1,
        mulVecT_zero (hA i') (hl' _), mulVecT_zero (hE i) (hv' _)]
      simp only [zero_add_zero]
    · rw [e, hq, m2, b64_zero, mulVec_zero (hQ i) (rest_x hz i), mulVecT_zero (hS i) (rest_u hz i), hl, m1,
        mulVecT_zero (hE i) (hv' _)]
      simp only [zero_add_zero]
  · rcases Rounding.mpc_grad_u (d := restProblem.toData 1 1 1 1) hb z l v i j with ⟨i', -, e⟩ | ⟨-, e⟩
    · rw [e, hr, m2, b64_zero, mulVec_zero (hS i) (rest_x hz i), mulVec_zero (hR i) (rest_u hz i),
        mulVecT_zero (hB i') (hl' _), mulVecT_zero (hL i) (hv' _)]
      simp only [zero_add_zero]
    · rw [e, hr, m2, b64_zero, mulVec_zero (hS i) (rest_x hz i), mulVec_zero (hR i) (rest_u hz i),
        mulVecT_zero (hL i) (hv' _)]
      simp only [zero_add_zero]

theorem rest_eq (a : Fin ((1 + 1) * 1)) : eqDefect (restProblem.toData 1 1 1 1).ops z a = b64 0 := by
  have hb := rounding.beqOk
  have r1 := finite_b64 representable_one
  have hA : ∀ k i j, Finite ((restProblem.toData 1 1 1 1).A k i j) := fun k i j => by
    simp only [restProblem, MpcProblem.toData, Vec.get_ofFn]; rw [constSeq_mat]; exact r1
  have hB : ∀ k i j, Finite ((restProblem.toData 1 1 1 1).B k i j) := fun k i j => by
    simp only [restProblem, MpcProblem.toData, Vec.get_ofFn]; rw [constSeq_mat]; exact r1
  have hc : ∀ k i, (restProblem.toData 1 1 1 1).c k i = b64 0 := fun k i => by
    simp only [restProblem, MpcProblem.toData, Vec.get_ofFn]; rw [constSeq_vec]
  have hx : ∀ i, (restProblem.toData 1 1 1 1).x0 i = b64 0 := fun i => by
    obtain rfl : i = 0 := Subsingleton.elim _ _
    rfl
  have m1 : (-1 : Binary64) * b64 0 = b64 0 := finite_mul_zero finite_neg_one
  have m3 : (- -1 : Binary64) * b64 0 = b64 0 := finite_mul_zero finite_neg_neg_one
  obtain ⟨i, j, rfl⟩ := flatIdx_surj a
  refine Fin.cases ?_ (fun i => ?_) i
  · rw [Rounding.mpc_eq_zero hb, hx, hz, m1, m3, b64_zero, zero_add_zero, zero_add_zero]
  · rw [Rounding.mpc_eq_succ hb, hc, hz, m1, b64_zero, mulVec_zero (hA i) (rest_x hz _),
      mulVec_zero (hB i) (rest_u hz _), zero_add_zero, zero_sub_zero, zero_add_zero]

theorem rest_margin (a : Fin ((1 + 1) * 1)) : margin (restProblem.toData 1 1 1 1).ops z a = b64 4 := by
  have hb := rounding.beqOk
  have r1 := finite_b64 representable_one
  have hE : ∀ k i j, Finite ((restProblem.toData 1 1 1 1).E k i j) := fun k i j => by
    simp only [restProblem, MpcProblem.toData, Vec.get_ofFn]; rw [constSeq_mat]; exact r1
  have hL : ∀ k i j, Finite ((restProblem.toData 1 1 1 1).L k i j) := fun k i j => by
    simp only [restProblem, MpcProblem.toData, Vec.get_ofFn]; rw [constSeq_mat]; exact r1
  have hd : ∀ k i, (restProblem.toData 1 1 1 1).d k i = b64 (-4) := fun k i => by
    simp only [restProblem, MpcProblem.toData, Vec.get_ofFn]; rw [constSeq_vec]
  obtain ⟨i, j, rfl⟩ := flatIdx_surj a
  have e : margin (restProblem.toData 1 1 1 1).ops z (flatIdx i j) =
      (0 + (-1) * (restProblem.toData 1 1 1 1).d i j) - (((restProblem.toData 1 1 1 1).E i * xBlock z i) j +
        ((restProblem.toData 1 1 1 1).L i * uBlock z i) j) := by
    rw [← colBlock_get]
    simp only [margin, MpcData.ops]
    rw [MpcData.gemvA_neg_gen _ hb, MpcData.axpyb_any_gen]
    simp only [Vec.get_add, Vec.get_sub, Vec.get_smul, colBlock_get, Vec.get_const]
  rw [e, hd, mulVec_zero (hE i) (rest_x hz _), mulVec_zero (hL i) (rest_u hz _), zero_add_zero, b64_zero, b64_one,
    b64_neg representable_one, b64_mul (representable_neg representable_one) (representable_neg rep4),
    show (-1 : ℝ) * -4 = 4 by norm_num, b64_add representable_zero rep4, zero_add,
    b64_sub rep4 representable_zero, sub_zero]

include hl hv in
theorem rest_residual {y : Vec Binary64 ((1 + 1) * 1)} (hy : ∀ i, y i = b64 4) :
    residualNorm (restProblem.toData 1 1 1 1).ops (0.95 : Binary64) ⟨z, l, v, y⟩ = b64 0 := by
  obtain ⟨a, ra, ea, ha⟩ := lit_close (r := 0.95) (by norm_num) (by norm_num)
  have e95 : (0.95 : Binary64) = b64 a := (b64_literal 95 true 2).trans ea
  obtain ⟨c, rc, ec, hc⟩ := lit_close (r := 1 - a) (by norm_num at *; linarith [(abs_le.1 ha).2])
    (by norm_num at *; linarith [(abs_le.1 ha).1])
  have hc1 : |c| ≤ 2 := by
    rw [abs_le] at ha hc ⊢
    norm_num at *
    constructor <;> linarith [ha.1, ha.2, hc.1, hc.2]
  obtain ⟨d, rd, ed, -⟩ := b64_round (r := c * 4) (by rw [abs_mul]; norm_num; linarith)
  have r0 := representable_zero
  have r1 := representable_one
  have c0 : cmin (b64 4) (b64 0) = b64 0 := by
    unfold cmin; rw [if_pos ((b64_lt r0 rep4).2 (by norm_num))]
  have c1 : cmax (b64 0) (b64 4) = b64 4 := by
    unfold cmax; rw [if_pos ((b64_lt r0 rep4).2 (by norm_num))]
  have c2 : cmax (b64 0) (b64 0) = b64 0 := by
    unfold cmax; split <;> rfl
  have g2 : ∀ i, penalizedMin (0.95 : Binary64) y v i = b64 0 := fun i => by
    simp only [penalizedMin, Vec.get_ofFn]
    rw [e95, hy, hv, b64_zero, b64_one, c0, c1, c2, b64_sub r1 ra, ec, b64_mul rc rep4, ed, b64_mul rd r0, mul_zero,
      b64_mul ra r0, mul_zero, b64_add r0 r0, add_zero]
  unfold residualNorm norm3
  simp only
  rw [norm_zero (rest_grad hz hl hv), norm_zero (rest_eq hz), norm_zero g2, b64_mul r0 r0, mul_zero, zero_add_zero,
    zero_add_zero, sqrt_zero]
end

theorem rest_tol : ∃ t, 0 < t ∧ Representable t ∧
    stoppingTol (restProblem.toData 1 1 1 1).ops (Params.defaults : Params Binary64) = b64 t := by
  have rep32 : Representable 32 := by exact_mod_cast rep_nat 32 (by norm_num)
  have s1 : 1 ≤ √(32 : ℝ) := Real.one_le_sqrt.2 (by norm_num)
  have s2 : √(32 : ℝ) ≤ 6 := by rw [Real.sqrt_le_left (by norm_num)]; norm_num
  have ef : (restProblem.toData 1 1 1 1).ops.forcingNorm = b64 √32 := by
    have e : (restProblem.toData 1 1 1 1).ops.forcingNorm = Scalar.sqrt
      (0 + (0 + b64 0 * b64 0) + (0 + b64 0 * b64 0) + (0 + b64 (-4) * b64 (-4)) + (0 + b64 0 * b64 0) +
        (0 + b64 0 * b64 0) + (0 + b64 0 * b64 0) + (0 + b64 (-4) * b64 (-4)) + (0 + b64 0 * b64 0)) := rfl
    have r0 := representable_zero
    have rn := representable_neg rep4
    rw [e, b64_zero]
    simp only [b64_mul r0 r0, mul_zero, b64_mul rn rn, show (-4 : ℝ) * -4 = 16 by norm_num, b64_add r0 r0, add_zero,
      b64_add r0 rep16, zero_add, b64_add rep16 r0, b64_add rep16 rep16, show (16 : ℝ) + 16 = 32 by norm_num,
      b64_add rep32 r0, b64_sqrt rep32 (by norm_num : (0 : ℝ) ≤ 32)]
  obtain ⟨f, rf, ef', hf⟩ := lit_close (r := √32) (by norm_num; linarith) (by linarith)
  obtain ⟨a, ra, ea, ha⟩ := lit_close (r := 1e-6) (by norm_num) (by norm_num)
  obtain ⟨b, rb, eb, hb⟩ := lit_close (r := 1e-12) (by norm_num) (by norm_num)
  have e6 : (1e-6 : Binary64) = b64 a := (b64_literal 1 true 6).trans ea
  have e12 : (1e-12 : Binary64) = b64 b := (b64_literal 1 true 12).trans eb
  rw [abs_le] at ha hb hf
  norm_num at ha hb hf
  obtain ⟨g, rg, eg, hg⟩ := lit_close (r := 1 + f) (by norm_num; linarith [hf.1]) (by linarith [hf.2])
  rw [abs_le] at hg
  norm_num at hg
  have g1 : 1 ≤ g := by linarith [hg.1, hf.1]
  have g2 : g ≤ 10 := by linarith [hg.2, hf.2]
  obtain ⟨c, rc, ec, hc⟩ := lit_close (r := b * g)
    (by norm_num; nlinarith [hb.1, hg.1, hf.1]) (by nlinarith [hb.2, hb.1])
  rw [abs_le] at hc
  norm_num at hc
  have bg : 0 ≤ b * g := mul_nonneg (by linarith [hb.1]) (by linarith)
  have bg' : b * g ≤ 1 := by nlinarith [hb.2, hb.1]
  obtain ⟨d, rd, ed, hd⟩ := lit_close (r := a + c) (by norm_num; linarith [ha.1, hc.1])
    (by linarith [ha.2, hc.2])
  rw [abs_le] at hd
  norm_num at hd
  refine ⟨d, by linarith [ha.1, hc.1, hd.1], rd, ?_⟩
  have e : stoppingTol (restProblem.toData 1 1 1 1).ops (Params.defaults : Params Binary64) =
    1e-6 + 1e-12 * (1 + (restProblem.toData 1 1 1 1).ops.forcingNorm) := rfl
  rw [e, ef, ef', b64_one, b64_add representable_one rf, eg, e6, e12, b64_mul rb rg, ec, b64_add ra rc, ed]

theorem rest_success (junk : MpcJunk Binary64) :
    ((restSolver junk).solve restProblem restGuess).result = .ok ⟨.success, b64 0, 0, 0, b64 0⟩ := by
  obtain ⟨t, t0, rt, et⟩ := rest_tol
  have er : residualNorm ((restSolver junk).problem restProblem) (restSolver junk).options.alpha
      (restGuess.guess ((restSolver junk).problem restProblem)) = b64 0 :=
    rest_residual rest_z rest_l rest_v (rest_margin rest_z)
  have hm : ¬(1e-2 : Binary64) < 1e-12 := by
    obtain ⟨a, ra, ea, ha⟩ := lit_close (r := 1e-2) (by norm_num) (by norm_num)
    obtain ⟨b, rb, eb, hb⟩ := lit_close (r := 1e-12) (by norm_num) (by norm_num)
    have e2 : (1e-2 : Binary64) = b64 a := (b64_literal 1 true 2).trans ea
    have e12 : (1e-12 : Binary64) = b64 b := (b64_literal 1 true 12).trans eb
    rw [e2, e12, b64_lt ra rb]
    rw [abs_le] at ha hb
    norm_num at ha hb
    intro h
    linarith [ha.1, hb.2]
  have := (C12_mpc rounding.beqOk.zero (restSolver junk) restProblem restGuess (show 1 ≤ 30 by decide) hm rest_fits
    ⟨rfl, rfl, rfl, rfl⟩ (by
      rw [er, show stoppingTol ((restSolver junk).problem restProblem) (restSolver junk).options = b64 t from et,
        b64_le representable_zero rt]
      exact t0.le)).1
  rw [er] at this
  exact this

theorem rest_ones : ¬onesNorm Binary64 4 2 2 ≤ (1e-10 : Binary64) := by
  obtain ⟨a, ra, ea, ha⟩ := lit_close (r := 1e-10) (by norm_num) (by norm_num)
  have e10 : (1e-10 : Binary64) = b64 a := (b64_literal 1 true 10).trans ea
  have r0 := representable_zero
  have r1 := representable_one
  have r2 : Representable 2 := by exact_mod_cast rep_nat 2 (by norm_num)
  have h2 : 1 ≤ √(2 : ℝ) := Real.one_le_sqrt.2 (by norm_num)
  have h2' : √(2 : ℝ) ≤ 2 := by rw [Real.sqrt_le_left (by norm_num)]; norm_num
  obtain ⟨b, rb, eb, hb⟩ := lit_close (r := √2) (by norm_num; linarith) (by linarith)
  rw [abs_le] at ha hb
  norm_num at ha hb
  have b1 : 0.9 ≤ b := by norm_num; linarith [hb.1]
  have b2 : b ≤ 3 := by linarith [hb.2]
  obtain ⟨c, rc, ec, hc⟩ := lit_close (r := b * b) (by norm_num at *; nlinarith) (by nlinarith)
  rw [abs_le] at hc
  norm_num at hc b1
  have c1 : 0.5 ≤ c := by norm_num; nlinarith [hc.1]
  have c2 : c ≤ 10 := by nlinarith [hc.2]
  obtain ⟨d, rd, ed, hd⟩ := lit_close (r := 4 + c) (by norm_num at *; linarith) (by linarith)
  rw [abs_le] at hd
  norm_num at hd c1
  obtain ⟨e, re, ee, he⟩ := lit_close (r := d + c) (by norm_num at *; linarith [hd.1]) (by linarith [hd.2])
  rw [abs_le] at he
  norm_num at he
  have e1 : 4 ≤ e := by linarith [hd.1, he.1]
  have s1 : 1 ≤ √e := Real.one_le_sqrt.2 (by linarith)
  have s2 : √e ≤ 10 := by rw [Real.sqrt_le_left (by norm_num)]; linarith [hd.2, he.2]
  obtain ⟨f, rf, ef, hf⟩ := lit_close (r := √e) (by norm_num; linarith) (by linarith)
  have ee1 : onesNorm Binary64 4 2 2 = Scalar.sqrt
      (Scalar.sqrt (0 + 1 * 1 + 1 * 1 + 1 * 1 + 1 * 1) * Scalar.sqrt (0 + 1 * 1 + 1 * 1 + 1 * 1 + 1 * 1) +
    Scalar.sqrt (0 + 1 * 1 + 1 * 1) * Scalar.sqrt (0 + 1 * 1 + 1 * 1) +
    Scalar.sqrt (0 + 1 * 1 + 1 * 1) * Scalar.sqrt (0 + 1 * 1 + 1 * 1)) := rfl
  have s2 : Scalar.sqrt (b64 2) = b64 b := by rw [b64_sqrt r2 (by norm_num), eb]
  have s4 : Scalar.sqrt (b64 4) = b64 2 := by
    rw [b64_sqrt rep4 (by norm_num), show (4 : ℝ) = 2 ^ 2 by norm_num, Real.sqrt_sq (by norm_num)]
  rw [ee1, b64_zero, b64_one]
  simp only [b64_mul r1 r1, mul_one, b64_add r0 r1, zero_add, b64_add r1 r1, one_add_one_eq_two, b64_add r2 r1,
    show (2 : ℝ) + 1 = 3 by norm_num, b64_add rep3 r1, show (3 : ℝ) + 1 = 4 by norm_num, s2, s4, b64_mul r2 r2,
    show (2 : ℝ) * 2 = 4 by norm_num, b64_mul rb rb, ec, b64_add rep4 rc, ed, b64_add rd rc, ee,
    b64_sqrt re (by linarith : 0 ≤ e), ef, e10, b64_le rf ra]
  rw [abs_le] at hf
  norm_num at hf
  intro h
  linarith [ha.2, hf.1]

/-- C62_mpc: a default solver in binary64, started at rest. -/
theorem rest_kkt (junk : MpcJunk Binary64) :
    let xr := ((restSolver junk).solve restProblem restGuess).x.point 4 2 2
    let g := roundOff ((2 : ℝ) ^ (-53 : ℤ)) 4 2 2
    let w := underFlow ((2 : ℝ) ^ (-1075 : ℤ)) 4 2 2
    ∃ z l v y alpha absTol relTol, rounding.Reads xr.z z ∧ rounding.Reads xr.l l ∧ rounding.Reads xr.v v ∧
      rounding.Reads xr.y y ∧ 0.9 ≤ alpha ∧ absTol ≤ 1.01e-6 ∧ relTol ≤ 1.01e-12 ∧
      restOcp.toQP.RoundedKKT alpha (roundedTol restOcp.toQP absTol relTol g w) g w z l v y := by
  intro xr g w
  obtain ⟨t, t0, rt, et⟩ := rest_tol
  obtain ⟨a, ra, ea, ha⟩ := lit_close (r := 1e-6) (by norm_num) (by norm_num)
  obtain ⟨b, rb, eb, hb⟩ := lit_close (r := 1e-12) (by norm_num) (by norm_num)
  obtain ⟨al, ral, eal, hal⟩ := lit_close (r := 0.95) (by norm_num) (by norm_num)
  have e6 : (1e-6 : Binary64) = b64 a := (b64_literal 1 true 6).trans ea
  have e12 : (1e-12 : Binary64) = b64 b := (b64_literal 1 true 12).trans eb
  have e95 : (0.95 : Binary64) = b64 al := (b64_literal 95 true 2).trans eal
  rw [abs_le] at ha hb hal
  norm_num at ha hb hal
  have key := C62_mpc rounding (restSolver junk) one_pos (show 1 ≤ 30 by decide) restProblem restGuess restOcp
    rest_reads (show roundOff ((2 : ℝ) ^ (-53 : ℤ)) 4 2 2 < 1 by unfold roundOff; norm_num) al a b
    (by rw [← b64_toReal ral, ← e95]; rfl) (by linarith [hal.1])
    (by linarith [hal.2]) (by rw [← b64_toReal ra, ← e6]; rfl) (by linarith [ha.1])
    (by rw [← b64_toReal rb, ← e12]; rfl) (by linarith [hb.1])
    ⟨t, (congrArg rounding.toReal et).trans (b64_toReal rt)⟩ _ (rest_success junk) rfl
  rcases key with ⟨z, l, v, y, h1, h2, h3, h4, h5⟩ | h | h
  · exact ⟨z, l, v, y, al, a, b, h1, h2, h3, h4, by norm_num; linarith [hal.1], by norm_num; linarith [ha.2],
      by norm_num; linarith [hb.2], h5⟩
  · exact absurd h.2 rest_ones
  · exact absurd h.1 (lt_irrefl _)

end Fbstab
