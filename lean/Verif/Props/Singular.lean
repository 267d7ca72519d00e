import Verif.Props.Drift
import Verif.Props.NoThrow

/-!
# C13 in IEEE arithmetic: a convex, solvable problem on which `Solve` throws
-/

namespace Fbstab

namespace Core
variable {K : Type} [Scalar K] {nz nl nv : Nat}

/-- If the guess is not accepted and the first factorisation fails, `Solve` throws. -/
theorem solve_factor_fails {E : Env K nz nl nv} {ws : FeasWs K nz nl nv} {z : Vec K nz} {l : Vec K nl} {v : Vec K nv}
    (h1 : 1 ≤ E.opts.maxProxIters) (h2 : 1 ≤ E.opts.maxInnerIters) (h3 : 1 ≤ E.opts.maxNewtonIters) {t0 t1 : K}
    (tol0 : saturate (Resid.norm (E.penRes (startPt E z l v))) E.opts.innerTolMin E.opts.innerTolMax = .ok t0)
    (tol1 : saturate (t0 * E.opts.delta) E.opts.innerTolMin (Resid.norm (E.penRes (startPt E z l v))) = .ok t1)
    (bad : ¬Resid.norm (E.penRes (startPt E z l v)) ≤ E.comboTol) (ones : ¬normPt (onesPt E) ≤ E.opts.stallTol)
    (start : ¬((Resid.norm (E.innerRes (startPt E z l v) (startPt E z l v) E.opts.sigma0) ≤ t1 ∧
        Resid.norm (E.penRes (startPt E z l v)) < Resid.norm (E.penRes (startPt E z l v))) ∨
      Resid.norm (E.innerRes (startPt E z l v) (startPt E z l v) E.opts.sigma0) ≤ E.opts.innerTolMin))
    (hf : E.factor (startPt E z l v) (startPt E z l v) E.opts.sigma0 = .ok none) :
    (solve E ws z l v).2 = .error factorFailed := by
  obtain ⟨n, hn⟩ : ∃ n, E.opts.maxProxIters.toNat = n + 1 := ⟨E.opts.maxProxIters.toNat - 1, by omega⟩
  obtain ⟨k, hk⟩ : ∃ n, E.opts.maxInnerIters.toNat = n + 1 := ⟨E.opts.maxInnerIters.toNat - 1, by omega⟩
  have n0 : ¬E.opts.maxNewtonIters ≤ ((0 : Nat) : Int) := by omega
  have hin : (subproblem E t1 (Resid.norm (E.penRes (startPt E z l v))) (startPt E z l v) 0
      (E.penRes (startPt E z l v))).2 = .error factorFailed := by
    unfold subproblem
    rw [hk]
    simp only [innerLoop]
    rw [if_neg start, if_neg n0, hf]
    rfl
  unfold solve
  simp only [tol0, hn, proxLoop]
  rw [if_neg (not_or.2 ⟨bad, ones⟩)]
  simp only [tol1, hin]

end Core

/-- Without a larger diagonal entry further down nothing is permuted. -/
theorem ldltPerm_id {K : Type} [Scalar K] {n : Nat} {A : Mat K n n}
    (h : ∀ k i : Fin n, k < i → ¬cabs (A k k) < cabs (A i i)) : ldltPerm A = Vec.ofFn id := by
  unfold ldltPerm
  refine forFin_induct (fun _ p => p = Vec.ofFn id) rfl ?_
  rintro k p rfl
  have hb : forFin n (fun i b => if k < i then if cabs (A ((Vec.ofFn id : Vec (Fin n) n) b)
      ((Vec.ofFn id : Vec (Fin n) n) b)) < cabs (A ((Vec.ofFn id : Vec (Fin n) n) i)
      ((Vec.ofFn id : Vec (Fin n) n) i)) then i else b else b) k = k := by
    refine forFin_induct (fun _ b => b = k) rfl ?_
    rintro i b rfl
    simp only [Vec.get_ofFn, id]
    split_ifs with h1 h2
    · exact absurd h2 (h _ _ h1)
    · rfl
    · rfl
  simp only
  rw [hb]
  apply Vec.ext
  intro i
  simp only [Vec.get_set, Vec.get_ofFn, id]
  split_ifs with h1 <;> simp [h1]

theorem permuteLower_id {K : Type} [Scalar K] {n : Nat} (A : Mat K n n) {i j : Fin n} (h : j ≤ i) :
    permuteLower (Vec.ofFn id) A i j = A i j := by
  simp only [permuteLower, Mat.get_ofFn, Vec.get_ofFn, id, if_pos h]

/-- Once the factorisation has failed it stays failed. -/
theorem ldltStep_failed {K : Type} [Scalar K] {n : Nat} (k : Fin n) {s : LdltState K n} (h : s.ret = false) :
    (ldltStep k s).ret = false := by
  simp only [ldltStep, h, Bool.false_and]

open Binary64

theorem Binary64.Is.beq_zero {x : Binary64} {a : ℝ} (h : Is x a) : (x == 0) = true ↔ a = 0 :=
  rounding.beq x 0 a 0 h.toReal Is.zero.toReal

/-- The factorisation of a matrix of size 3 whose second pivot is zero. -/
theorem ldlt3_fails {M : Mat Binary64 3 3} {a c d e : ℝ} (ha : a ≠ 0) (h00 : Is (M 0 0) a) (h10 : Is (M 1 0) a)
    (h11 : Is (M 1 1) a) (h20 : Is (M 2 0) c) (h21 : Is (M 2 1) d) (h22 : Is (M 2 2) e) (hca : Representable (c / a))
    (he : |e| ≤ |a|) (hdc : d - c ≠ 0) (hr : Representable (d - c)) : (ldltCompute M).success = false := by
  have hp : ldltPerm M = Vec.ofFn id := by
    refine ldltPerm_id ?_
    have k01 : ¬cabs (M 0 0) < cabs (M 1 1) := by rw [h00.cabs.lt h11.cabs]; exact lt_irrefl _
    have k02 : ¬cabs (M 0 0) < cabs (M 2 2) := by rw [h00.cabs.lt h22.cabs]; exact not_lt.2 he
    have k12 : ¬cabs (M 1 1) < cabs (M 2 2) := by rw [h11.cabs.lt h22.cabs]; exact not_lt.2 he
    intro k i hki
    fin_cases k <;> fin_cases i <;> first | exact absurd hki (by decide) | assumption
  unfold ldltCompute
  simp only [hp]
  have e : (forFin 3 ldltStep ⟨true, false, permuteLower (Vec.ofFn id) M⟩ : LdltState Binary64 3) =
    ldltStep 2 (ldltStep 1 (ldltStep 0 ⟨true, false, permuteLower (Vec.ofFn id) M⟩)) := rfl
  rw [e]
  refine ldltStep_failed _ ?_
  set A := permuteLower (Vec.ofFn id) M with hA
  have a00 : A 0 0 = M 0 0 := permuteLower_id M (by decide)
  have a10 : A 1 0 = M 1 0 := permuteLower_id M (by decide)
  have a20 : A 2 0 = M 2 0 := permuteLower_id M (by decide)
  have a11 : A 1 1 = M 1 1 := permuteLower_id M (by decide)
  have a21 : A 2 1 = M 2 1 := permuteLower_id M (by decide)
  have z := Is.zero
  have zz := ((z.zero_add z).zero_add z).zero_add z
  have p0 : Is (A 0 0 - (0 + 0 + 0 + 0)) a := by rw [a00]; exact h00.sub_zero zz
  have p1 : Is (A 1 0 - (0 + 0 + 0 + 0)) a := by rw [a10]; exact h10.sub_zero zz
  have p2 : Is (A 2 0 - (0 + 0 + 0 + 0)) c := by rw [a20]; exact h20.sub_zero zz
  have v0 : (0 : Binary64) < cabs (A 0 0 - (0 + 0 + 0 + 0)) := by
    rw [Is.zero.lt p0.cabs]; exact abs_pos.2 ha
  generalize hB : (ldltStep 0 ⟨true, false, A⟩ : LdltState Binary64 3) = B
  have b00 : Is (B.mat 0 0) a := by
    have : B.mat 0 0 = A 0 0 - (0 + 0 + 0 + 0) := by rw [← hB]; rfl
    rw [this]; exact p0
  have b10 : Is (B.mat 1 0) 1 := by
    have : B.mat 1 0 = if decide (0 < cabs (A 0 0 - (0 + 0 + 0 + 0))) = true then
      (A 1 0 - (0 + 0 + 0 + 0)) / (A 0 0 - (0 + 0 + 0 + 0)) else A 1 0 - (0 + 0 + 0 + 0) := by rw [← hB]; rfl
    rw [this, if_pos (decide_eq_true v0)]
    exact p1.div p0 ha (div_self ha) representable_one
  have b20 : Is (B.mat 2 0) (c / a) := by
    have : B.mat 2 0 = if decide (0 < cabs (A 0 0 - (0 + 0 + 0 + 0))) = true then
      (A 2 0 - (0 + 0 + 0 + 0)) / (A 0 0 - (0 + 0 + 0 + 0)) else A 2 0 - (0 + 0 + 0 + 0) := by rw [← hB]; rfl
    rw [this, if_pos (decide_eq_true v0)]
    exact p2.div p0 ha rfl hca
  have b11 : Is (B.mat 1 1) a := by
    have : B.mat 1 1 = A 1 1 := by rw [← hB]; rfl
    rw [this, a11]; exact h11
  have b21 : Is (B.mat 2 1) d := by
    have : B.mat 2 1 = A 2 1 := by rw [← hB]; rfl
    rw [this, a21]; exact h21
  have pv := b11.sub (((Is.zero.zero_add (b10.one_mul (b00.mul_one b10))).add_zero z).add_zero z) (c := 0) (sub_self a)
    representable_zero
  have cv := b21.sub (((Is.zero.zero_add (b20.mul (b00.mul_one b10) (c := c) (by field_simp) h20.rep)).add_zero z).add_zero z)
    rfl hr
  have nv : ¬(0 : Binary64) < cabs (B.mat 1 1 - (0 + B.mat 1 0 * (B.mat 0 0 * B.mat 1 0) + 0 + 0)) := by
    rw [Is.zero.lt pv.cabs, abs_zero]; exact lt_irrefl _
  have hret : (ldltStep 1 B).ret = (B.ret && (decide (0 < cabs (B.mat 1 1 -
      (0 + B.mat 1 0 * (B.mat 0 0 * B.mat 1 0) + 0 + 0))) || decide (∀ i : Fin 3, 1 < i →
      ((Vec.ofFn fun i => B.mat i 1 - dotIf 3 (fun j => j < 1) (fun j => B.mat i j) (fun j => B.mat j j * B.mat 1 j) :
        Vec Binary64 3) i == 0) = true)) &&
      !(B.zeroPivot && decide (0 < cabs (B.mat 1 1 - (0 + B.mat 1 0 * (B.mat 0 0 * B.mat 1 0) + 0 + 0))))) := rfl
  have hc : ¬∀ i : Fin 3, 1 < i → ((Vec.ofFn fun i => B.mat i 1 - dotIf 3 (fun j => j < 1) (fun j => B.mat i j)
      (fun j => B.mat j j * B.mat 1 j) : Vec Binary64 3) i == 0) = true := by
    intro h
    have h2 := h 2 (by decide)
    rw [Vec.get_ofFn] at h2
    have e2 : (B.mat 2 1 - dotIf 3 (fun j => j < 1) (fun j => B.mat 2 j) (fun j => B.mat j j * B.mat 1 j)) =
      B.mat 2 1 - (0 + B.mat 2 0 * (B.mat 0 0 * B.mat 1 0) + 0 + 0) := rfl
    rw [e2] at h2
    exact hdc ((cv.beq_zero).1 h2)
  rw [hret, decide_eq_false nv, decide_eq_false hc]
  simp

/-- `min 2^29 (z1 + z2)^2 + 3 z1 s.t. z1 = z2, 0 <= 4`. -/
def foldQP : QP 2 1 1 where
  H := fun _ _ => 2 ^ 30
  f := ![3, 0]
  G := fun _ => ![1, -1]
  h := fun _ => 0
  A := fun _ _ => 0
  b := fun _ => 4

/-- The same in binary64. -/
noncomputable def foldProblem : DenseProblem Binary64 where
  H := ⟨2, 2, #[b64 (2 ^ 30), b64 (2 ^ 30), b64 (2 ^ 30), b64 (2 ^ 30)], rfl⟩
  f := ⟨#[b64 3, b64 0]⟩
  G := ⟨1, 2, #[b64 1, b64 (-1)], rfl⟩
  h := ⟨#[b64 0]⟩
  A := ⟨1, 2, #[b64 0, b64 0], rfl⟩
  b := ⟨#[b64 4]⟩

/-- The guess 0. -/
noncomputable def foldGuess : CallerVar Binary64 :=
  ⟨false, ⟨#[b64 0, b64 0]⟩, ⟨#[b64 0]⟩, ⟨#[b64 0]⟩, ⟨#[]⟩⟩

noncomputable abbrev foldData : DenseData Binary64 2 1 1 := foldProblem.toData 2 1 1

namespace Flat

theorem rep3 : Representable 3 := by exact_mod_cast rep_nat 3 (by norm_num)
theorem rep4 : Representable 4 := by exact_mod_cast rep_nat 4 (by norm_num)

theorem dH (i j : Fin 2) : Is (foldData.H i j) (2 ^ 30) := by
  fin_cases i <;> fin_cases j <;> exact is_b64 (repP 30 (by norm_num))
theorem df0 : Is (foldData.f 0) 3 := is_b64 rep3
theorem df1 : Is (foldData.f 1) 0 := is_b64 representable_zero
theorem dG0 : Is (foldData.G 0 0) 1 := is_b64 representable_one
theorem dG1 : Is (foldData.G 0 1) (-1) := is_b64 (representable_neg representable_one)
theorem dh : Is (foldData.h 0) 0 := is_b64 representable_zero
theorem dA (j : Fin 2) : Is (foldData.A 0 j) 0 := by fin_cases j <;> exact is_b64 representable_zero
theorem db : Is (foldData.b 0) 4 := is_b64 rep4

noncomputable def E : Core.Env Binary64 2 1 1 := Core.env (denseSem Binary64 2 1 1) foldData foldData.ops Params.defaults

/-- A gradient entry of the Lagrangian as the code computes it. -/
theorem grad (i : Fin 2) (z : Vec Binary64 2) (l v : Vec Binary64 1) : gradLagrangian foldData.ops z l v i =
    (0 + (1 * foldData.A 0 i) * v 0) + 1 * ((0 + (1 * foldData.G 0 i) * l 0) + 1 *
      ((0 + (1 * foldData.H i 0) * z 0 + (1 * foldData.H i 1) * z 1) + 1 * (0 + 1 * foldData.f i))) := by
  fin_cases i <;> rfl

/-- The margin. -/
theorem marg (z : Vec Binary64 2) : margin foldData.ops z 0 =
    (0 + (-1 * foldData.A 0 0) * z 0 + (-1 * foldData.A 0 1) * z 1) + 1 * (0 + 1 * foldData.b 0) := rfl

theorem defect (z : Vec Binary64 2) : eqDefect foldData.ops z 0 =
    (0 + (-1 * foldData.G 0 0) * z 0 + (-1 * foldData.G 0 1) * z 1) + 1 * (0 + 1 * foldData.h 0) := rfl

noncomputable def z0 : Vec Binary64 2 := foldGuess.z.toVec 2
noncomputable def l0 : Vec Binary64 1 := foldGuess.l.toVec 1
noncomputable def v0 : Vec Binary64 1 := foldGuess.v.toVec 1
noncomputable def x0 : Point Binary64 2 1 1 := Core.startPt E z0 l0 v0

theorem iz (i : Fin 2) : Is (z0 i) 0 := by fin_cases i <;> exact is_b64 representable_zero
theorem il : Is (l0 0) 0 := is_b64 representable_zero
theorem iv : Is (v0 0) 0 := is_b64 representable_zero

theorem iy : Is (x0.y 0) 4 := by
  have e : x0.y 0 = _ := marg z0
  rw [e]
  have m := Is.one.neg
  exact ((Is.zero.zero_add ((m.mul_zero (dA 0)).zero_mul (iz 0))).add_zero ((m.mul_zero (dA 1)).zero_mul (iz 1))).zero_add
    (Is.one.one_mul (Is.zero.zero_add (Is.one.one_mul db)))

theorem ig {i : Fin 2} {g f : ℝ} (hg : Is (foldData.G 0 i) g) (hf : Is (foldData.f i) f) :
    Is (gradLagrangian foldData.ops z0 l0 v0 i) f := by
  rw [grad]
  have o := Is.one
  exact (Is.zero.zero_add ((o.one_mul (dA i)).zero_mul iv)).zero_add (o.one_mul
    ((Is.zero.zero_add ((o.one_mul hg).mul_zero il)).zero_add (o.one_mul
      (((Is.zero.zero_add ((o.one_mul (dH i 0)).mul_zero (iz 0))).add_zero ((o.one_mul (dH i 1)).mul_zero (iz 1))).zero_add
        (o.one_mul (Is.zero.zero_add (o.one_mul hf)))))))

theorem id0 : Is (eqDefect foldData.ops z0 0) 0 := by
  rw [defect]
  have m := Is.one.neg
  exact ((Is.zero.zero_add ((m.mul_one dG0).mul_zero (iz 0))).add_zero
    ((m.mul dG1 rfl (by norm_num; exact representable_one)).mul_zero (iz 1))).zero_add
    (Is.one.one_mul (Is.zero.zero_add (Is.one.one_mul dh)))

/-- The norm of a triple of sizes 2, 1, 1. -/
theorem norm3_eq (a : Vec Binary64 2) (b c : Vec Binary64 1) : norm3 a b c =
    Scalar.sqrt (Scalar.sqrt (0 + a 0 * a 0 + a 1 * a 1) * Scalar.sqrt (0 + a 0 * a 0 + a 1 * a 1) +
      Scalar.sqrt (0 + b 0 * b 0) * Scalar.sqrt (0 + b 0 * b 0) +
      Scalar.sqrt (0 + c 0 * c 0) * Scalar.sqrt (0 + c 0 * c 0)) := rfl

theorem rep9 : Representable 9 := by exact_mod_cast rep_nat 9 (by norm_num)

theorem norm_three {a : Vec Binary64 2} {b c : Vec Binary64 1} (h0 : Is (a 0) 3) (h1 : Is (a 1) 0) (hb : Is (b 0) 0)
    (hc : Is (c 0) 0) : Is (norm3 a b c) 3 := by
  rw [norm3_eq]
  have n := ((Is.zero.zero_add (h0.mul h0 (c := 9) (by norm_num) rep9)).add_zero (h1.mul_zero h1)).sqrt (c := 3)
    (by norm_num) (by norm_num) rep3
  have s : ∀ {x : Binary64}, Is x 0 → Is (Scalar.sqrt (0 + x * x)) 0 := fun h =>
    (Is.zero.zero_add (h.mul_zero h)).sqrt le_rfl (by norm_num) representable_zero
  exact (((n.mul n (c := 9) (by norm_num) rep9).add_zero ((s hb).mul_zero (s hb))).add_zero
    ((s hc).mul_zero (s hc))).sqrt (by norm_num) (by norm_num) rep3

open Drift (alpha sigma lit2 lit6 lit12 lit13 delta oneSub mulC addC sqrtC)

theorem norm0 : Is (Core.Resid.norm (E.penRes x0)) 3 := by
  obtain ⟨al, hal, a1, a2⟩ := alpha
  obtain ⟨e, he⟩ := oneSub hal a1 a2 iy (by norm_num) (by norm_num)
  have m1 := iy.cmin iv
  rw [min_eq_right (by norm_num)] at m1
  have m2 := Is.zero.cmax iv
  rw [max_self] at m2
  exact norm_three (ig dG0 df0) (ig dG1 df1) id0 ((Is.mul_zero hal m1).add_zero (he.mul_zero m2))

theorem innerNorm0 : Is (Core.Resid.norm (E.innerRes x0 x0 E.opts.sigma0)) 3 := by
  obtain ⟨al, hal, a1, a2⟩ := alpha
  obtain ⟨s, hs, -⟩ := sigma
  have hs' : Is E.opts.sigma0 s := hs
  have ys := iy.add_zero (hs'.mul_zero (iv.sub_zero iv))
  obtain ⟨e, he⟩ := oneSub hal a1 a2 ys (by norm_num) (by norm_num)
  have p := ys.pfb iv hal (by norm_num) (by
    have := rep_nat 16 (by norm_num)
    norm_num at this ⊢
    exact this) he
  refine norm_three ?_ ?_ ?_ p
  · exact (ig dG0 df0).add_zero (hs'.mul_zero ((iz 0).sub_zero (iz 0)))
  · exact (ig dG1 df1).add_zero (hs'.mul_zero ((iz 1).sub_zero (iz 1)))
  · exact id0.add_zero (hs'.mul_zero (il.sub_zero il))

theorem rep5 : Representable 5 := by exact_mod_cast rep_nat 5 (by norm_num)
theorem rep6 : Representable 6 := by exact_mod_cast rep_nat 6 (by norm_num)
theorem rep16 : Representable 16 := by exact_mod_cast rep_nat 16 (by norm_num)
theorem rep25 : Representable 25 := by exact_mod_cast rep_nat 25 (by norm_num)

theorem forcing : Is E.ops.forcingNorm 5 := by
  have e : E.ops.forcingNorm = Scalar.sqrt ((0 + foldData.b 0 * foldData.b 0) +
    (0 + foldData.f 0 * foldData.f 0 + foldData.f 1 * foldData.f 1) + (0 + foldData.h 0 * foldData.h 0)) := rfl
  rw [e]
  exact ((((Is.zero.zero_add (db.mul db (c := 16) (by norm_num) rep16))).add
    ((Is.zero.zero_add (df0.mul df0 (c := 9) (by norm_num) rep9)).add_zero (df1.mul_zero df1)) (c := 25) (by norm_num)
      rep25).add_zero (Is.zero.zero_add (dh.mul_zero dh))).sqrt (by norm_num) (by norm_num) rep5

theorem tol : ∃ t, Is E.comboTol t ∧ t ≤ 1 := by
  obtain ⟨a, ha, a1, a2⟩ := lit6
  obtain ⟨r, hr, r1, r2⟩ := lit12
  norm_num at a1 a2 r1 r2
  have h9 := Is.one.add forcing (c := 6) (by norm_num) rep6
  obtain ⟨c, hc, hc1⟩ := mulC hr h9 (by norm_num; linarith) (by norm_num; linarith)
  norm_num at hc1
  obtain ⟨e, he, he1⟩ := addC ha hc (by norm_num; linarith [hc1.1]) (by norm_num; linarith [hc1.2])
  norm_num at he1
  exact ⟨e, he, by linarith [he1.2, hc1.2]⟩

theorem ones : ¬Core.normPt (Core.onesPt E) ≤ E.opts.stallTol := by
  obtain ⟨t, ht, -, t2⟩ := Drift.lit 1 true 10 (by norm_num) (by norm_num)
  norm_num at t2
  have ht' : Is E.opts.stallTol t := ht
  have o : Is (1 : Binary64) 1 := Is.one
  have r2 : Representable 2 := by exact_mod_cast rep_nat 2 (by norm_num)
  have oo := Is.zero.zero_add (o.one_mul o)
  obtain ⟨a, ha, a1, a2⟩ := sqrtC (oo.add (o.one_mul o) (c := 2) (by norm_num) r2) (by norm_num) (by norm_num)
  have h2 : 1 ≤ √(2 : ℝ) := Real.one_le_sqrt.2 (by norm_num)
  have h2' : √(2 : ℝ) ≤ 2 := by rw [Real.sqrt_le_left (by norm_num)]; norm_num
  norm_num at a1 a2
  have b1 : 9 / 10 ≤ a := by linarith
  have b2 : a ≤ 3 := by linarith
  have c1 : 8 / 10 ≤ a * a := by nlinarith
  have c2 : a * a ≤ 9 := by nlinarith
  obtain ⟨q, hq, q1, q2⟩ := mulC ha ha (by norm_num; linarith) (by norm_num; linarith)
  norm_num at q1 q2
  have s1 := oo.sqrt (c := 1) zero_le_one (by norm_num) representable_one
  have s2 := s1.one_mul s1
  obtain ⟨w, hw, w1, w2⟩ := addC hq s2 (by norm_num; linarith) (by norm_num; linarith)
  norm_num at w1 w2
  obtain ⟨u, hu, u1, u2⟩ := addC hw s2 (by norm_num; linarith) (by norm_num; linarith)
  norm_num at u1 u2
  obtain ⟨n, hn, n1, -⟩ := sqrtC hu (by linarith) (by norm_num; linarith)
  have k : 1 ≤ √u := Real.one_le_sqrt.2 (by linarith)
  norm_num at n1
  have hn' : Is (Core.normPt (Core.onesPt E)) n := hn
  rw [hn'.le ht']
  norm_num
  linarith

theorem grad_pfb : ∃ al, 0.94 ≤ al ∧ Is (pfbGamma E.opts.alpha E.opts.sigma0 x0.y x0.v x0.v 0) 0 ∧
    Is (pfbMu E.opts.alpha E.opts.sigma0 x0.y x0.v x0.v 0) al := by
  obtain ⟨al, hal, a1, -⟩ := alpha
  have hal' : Is E.opts.alpha al := hal
  obtain ⟨s, hs, -⟩ := sigma
  have hs' : Is E.opts.sigma0 s := hs
  obtain ⟨t, ht, -, t2⟩ := lit13
  have hv : Is (x0.v 0) 0 := iv
  have ys := iy.add_zero (hs'.mul_zero (hv.sub_zero hv))
  have r := ((ys.mul ys (c := 16) (by norm_num) rep16).add_zero (hv.mul_zero hv)).sqrt (c := 4) (by norm_num)
    (by norm_num) rep4
  have c1 : ¬Scalar.sqrt ((x0.y 0 + E.opts.sigma0 * (x0.v 0 - x0.v 0)) *
      (x0.y 0 + E.opts.sigma0 * (x0.v 0 - x0.v 0)) + x0.v 0 * x0.v 0) < (1e-13 : Binary64) := by
    rw [r.lt ht]
    norm_num at t2 ⊢
    linarith
  have c2 : ¬(0 < x0.y 0 + E.opts.sigma0 * (x0.v 0 - x0.v 0) ∧ 0 < x0.v 0) := by
    rw [Is.zero.lt hv]
    exact fun h => lt_irrefl _ h.2
  have g1 : Is (pfbGamma E.opts.alpha E.opts.sigma0 x0.y x0.v x0.v 0) 0 := by
    unfold pfbGamma pfbGradient
    simp only [if_neg c1, if_neg c2]
    exact hal'.mul_zero (Is.one.sub (ys.div r (by norm_num) (div_self (by norm_num)) representable_one)
      (sub_self 1) representable_zero)
  refine ⟨al, a1, g1, ?_⟩
  have e : pfbMu E.opts.alpha E.opts.sigma0 x0.y x0.v x0.v 0 =
    (pfbGradient E.opts.alpha (x0.y 0 + E.opts.sigma0 * (x0.v 0 - x0.v 0)) (x0.v 0)).2 + E.opts.sigma0 *
      pfbGamma E.opts.alpha E.opts.sigma0 x0.y x0.v x0.v 0 := rfl
  rw [e]
  refine Is.add_zero ?_ (hs'.mul_zero g1)
  unfold pfbGradient
  simp only [if_neg c1, if_neg c2]
  exact hal'.mul_one (Is.one.sub_zero (hv.div r (by norm_num) (zero_div _) representable_zero))

/-- The factored matrix. -/
noncomputable abbrev M : Mat Binary64 3 3 := denseK foldData E.opts.alpha x0 x0 E.opts.sigma0

/-- The upper left block. -/
theorem mH (i j : Fin 2) : M (Fin.castAdd 1 i) (Fin.castAdd 1 j) = foldData.H i j + E.opts.sigma0 *
    (if i = j then 1 else 0) + (0 + foldData.A 0 i * ((pfbGamma E.opts.alpha E.opts.sigma0 x0.y x0.v x0.v 0 /
      pfbMu E.opts.alpha E.opts.sigma0 x0.y x0.v x0.v 0) * foldData.A 0 j)) := by
  fin_cases i <;> fin_cases j <;> rfl

theorem iM (i j : Fin 2) : Is (M (Fin.castAdd 1 i) (Fin.castAdd 1 j)) (2 ^ 30) := by
  obtain ⟨s, hs, s1, s2⟩ := sigma
  have hs' : Is E.opts.sigma0 s := hs
  norm_num at s1 s2
  obtain ⟨al, a1, g, m⟩ := grad_pfb
  rw [mH]
  refine Is.add_zero ?_ (Is.zero.zero_add ((dA i).zero_mul ((g.div m (by norm_num at a1; linarith) (zero_div _)
    representable_zero).zero_mul (dA j))))
  by_cases h : i = j
  · rw [if_pos h]
    exact (dH i j).add' (hs'.mul_one Is.one) (Drift.round_30 (by linarith) (by norm_num; linarith)) (repP 30 (by norm_num))
  · rw [if_neg h]
    exact (dH i j).add_zero (hs'.mul_zero Is.zero)

theorem factor_fails : E.factor x0 x0 E.opts.sigma0 = .ok none := by
  obtain ⟨s, hs, s1, s2⟩ := sigma
  have hs' : Is E.opts.sigma0 s := hs
  norm_num at s1 s2
  show denseFactor foldData E.opts.alpha x0 x0 E.opts.sigma0 = _
  unfold denseFactor
  rw [if_neg (by rw [hs'.le Is.zero]; linarith), if_neg]
  have h22 : Is (M 2 2) (-s) := by
    have e : M 2 2 = -E.opts.sigma0 * 1 := rfl
    rw [e]
    exact hs'.neg.mul_one Is.one
  have r1 : Representable (1 / (2 : ℝ) ^ 30) := by
    have := rep_pow 1 (-30) (by norm_num) (by norm_num) (by norm_num)
    norm_num at this ⊢
    exact this
  have r2 : Representable (-1 - 1 : ℝ) := by
    have := representable_neg (rep_nat 2 (by norm_num))
    norm_num at this ⊢
    exact this
  have h : (ldltCompute M).success = false := ldlt3_fails (a := 2 ^ 30) (c := 1) (d := -1) (by norm_num) (iM 0 0) (iM 1 0) (iM 1 1)
    dG0 dG1 h22 r1 (by rw [abs_neg, abs_of_nonneg (by linarith), abs_of_pos (by norm_num)]; norm_num; linarith)
    (by norm_num) r2
  intro h'
  have h'' : (ldltCompute M).success = true := h'
  rw [h] at h''
  cases h''

theorem run (ws : FeasWs Binary64 2 1 1) : (Core.solve E ws z0 l0 v0).2 = .error Core.factorFailed := by
  obtain ⟨c2, h2, a1, a2⟩ := lit2
  obtain ⟨c12, h12, b1, b2⟩ := lit12
  obtain ⟨tl, htl, tl1⟩ := tol
  obtain ⟨de, hde, d1, d2⟩ := delta
  norm_num at a1 a2 b1 b2 d1 d2
  obtain ⟨t0, e0, i0⟩ := norm0.saturate h12 h2 (by linarith)
  rw [min_eq_right (by linarith), max_eq_left (by linarith)] at i0
  have q1 : 1 / 1000 ≤ c2 * de := by nlinarith
  have q2 : c2 * de ≤ 1 := by nlinarith
  obtain ⟨m, hm, -⟩ := mulC i0 hde (by norm_num; linarith) (by norm_num; linarith)
  obtain ⟨t1, e1, -⟩ := hm.saturate h12 norm0 (by linarith)
  refine Core.solve_factor_fails (E := E) (by show (1 : Int) ≤ 30; norm_num) (by show (1 : Int) ≤ 50; norm_num)
    (by show (1 : Int) ≤ 200; norm_num) e0 e1 ?_ ones ?_ factor_fails
  · intro h
    have := (norm0.le htl).1 h
    linarith
  · rintro (h | h)
    · exact absurd ((norm0.lt norm0).1 h.2) (lt_irrefl _)
    · have := (innerNorm0.le h12).1 h
      linarith

theorem reads : rounding.ReadsDense foldData foldQP where
  H i j := (dH i j).toReal
  f i := by
    fin_cases i
    · exact df0.toReal
    · exact df1.toReal
  G i j := by
    obtain rfl : i = 0 := Subsingleton.elim _ _
    fin_cases j
    · exact dG0.toReal
    · exact dG1.toReal
  h i := by
    obtain rfl : i = 0 := Subsingleton.elim _ _
    exact dh.toReal
  A i j := by
    obtain rfl : i = 0 := Subsingleton.elim _ _
    exact (dA j).toReal
  b i := by
    obtain rfl : i = 0 := Subsingleton.elim _ _
    exact db.toReal

/-- A new solver. -/
noncomputable def solver (junk : DenseJunk Binary64) : FBstabDense Binary64 :=
  ⟨2, 1, 1, AlgMem.fresh (ls := denseSolver Binary64 2 1 1)
    { junk.lin 2 1 1 with alpha := 0.95, data := none } (junk.feas 2 1 1)⟩

theorem fits : DenseFits 2 1 1 foldProblem foldGuess := by
  constructor <;> rfl

theorem convex : foldQP.Convex where
  symm := by
    apply Matrix.IsSymm.ext
    intro i j
    rfl
  nonneg x := by
    simp only [Matrix.mulVec, dotProduct, foldQP, Fin.sum_univ_two]
    nlinarith [sq_nonneg (x 0 + x 1)]

theorem kkt : foldQP.KKT (fun _ => -3 / 2 ^ 32) (fun _ => -3 / 2) (fun _ => 0) where
  stationary := by
    have e : ∀ i, foldQP.lagrangeGrad (fun _ => -3 / 2 ^ 32) (fun _ => -3 / 2) (fun _ => 0) i =
        -3 / 2 + foldQP.f i + foldQP.G 0 i * (-3 / 2) := by
      intro i
      simp only [QP.lagrangeGrad, Pi.add_apply, Matrix.mulVec, dotProduct, Matrix.transpose_apply, Fin.sum_univ_two,
        Fin.sum_univ_one]
      simp only [foldQP]
      norm_num
    funext i
    rw [e]
    fin_cases i <;> simp [foldQP] <;> norm_num
  feasible :=
    { eq := by
        funext i
        simp [Matrix.mulVec, dotProduct, foldQP, Fin.sum_univ_two]
      ineq := by
        intro i
        simp [Matrix.mulVec, dotProduct, foldQP] }
  dual _ := le_rfl
  complementary _ := .inl rfl

end Flat

/-- C13 is a property of exact arithmetic: in IEEE double precision a new solver with the default options throws on
the convex problem `min 2^29 (z1 + z2)^2 + 3 z1 s.t. z1 = z2, 0 <= 4`, which has a solution.  The regularisation
`sigma0 = 1e-8` is lost when it is added to the diagonal of `H`, and the second pivot is exactly zero. -/
theorem C13_not_binary64_dense (junk : DenseJunk Binary64) :
    rounding.ReadsDense (foldProblem.toData 2 1 1) foldQP ∧ foldQP.Convex ∧ (∃ z l v, foldQP.KKT z l v) ∧
    DenseFits 2 1 1 foldProblem foldGuess ∧
    ∃ s, FBstabDense.new junk 2 1 1 = .ok s ∧ (s.solve foldProblem foldGuess).result =
      .error (.runtimeError "In FBstabAlgorithm::Solve: LinearSolver::Initialize failed.") := by
  refine ⟨Flat.reads, Flat.convex, ⟨_, _, _, Flat.kkt⟩, Flat.fits,
    Flat.solver junk, FBstabDense.new_ok junk (by norm_num) (by norm_num) (by decide), ?_⟩
  have hf : DenseFits (Flat.solver junk).nz (Flat.solver junk).nl (Flat.solver junk).nv foldProblem foldGuess :=
    Flat.fits
  exact ((FBstabDense.solve_computes hf).error _ (Flat.run (junk.feas 2 1 1))).1

end Fbstab
