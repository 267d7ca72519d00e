import Verif.Props.SummaryParts
import Verif.Props.Drift

/-!
# C66: examples
-/

namespace Fbstab

/-- The text of a number whose mantissa and exponent are known. -/
theorem sciReal_of {p : Nat} {r : ℝ} {e m : ℤ} (h1 : (10 : ℝ) ^ e ≤ |r|) (h2 : |r| < (10 : ℝ) ^ (e + 1))
    (hm : |(|r| / (10 : ℝ) ^ (e - p)) - m| < 1 / 2) (hne : m ≠ 10 ^ (p + 1)) :
    sciReal p r = String.ofList ((if r < 0 then ['-'] else []) ++ pointed (Nat.toDigits 10 m.toNat) ++
      exponentText e) := by
  have h0 : 0 < |r| := lt_of_lt_of_le (zpow_pos (by norm_num) _) h1
  have hl : Int.log 10 |r| = e := by
    apply le_antisymm
    · have : Int.log 10 |r| < e + 1 := (Int.lt_zpow_iff_log_lt (b := 10) (by norm_num) h0).1 (by exact_mod_cast h2)
      omega
    · exact (Int.zpow_le_iff_le_log (b := 10) (by norm_num) h0).1 (by exact_mod_cast h1)
  have hr : r ≠ 0 := abs_pos.1 h0
  unfold sciReal
  rw [if_neg hr]
  have : sciParts p |r| = (m.toNat, e) := by
    unfold sciParts
    simp only [hl, nearestEven_of hm, if_neg hne]
  rw [this]

/-- `printf("%.4e", 140737488355328.0)` -/
example : sciReal 4 (2 ^ 47) = "1.4074e+14" := by
  rw [sciReal_of (e := 14) (m := 14074) (by norm_num) (by norm_num)
    (by norm_num [abs_lt]) (by norm_num), if_neg (by norm_num)]
  decide

/-- `printf("%.4e", -0.00125)` -/
example : sciReal 4 (-1 / 800) = "-1.2500e-03" := by
  have e : |(-1 / 800 : ℝ)| = 1 / 800 := by rw [abs_of_neg (by norm_num)]; norm_num
  rw [sciReal_of (e := -3) (m := 12500) (by rw [e]; norm_num) (by rw [e]; norm_num)
    (by rw [e]; norm_num) (by norm_num), if_pos (by norm_num)]
  decide

/-- The number is rounded up to the next power of ten: `printf("%.4e", 9.99996)`. -/
example : sciReal 4 9.99996 = "1.0000e+01" := by
  have hl : Int.log 10 |(9.99996 : ℝ)| = 0 := by
    rw [abs_of_pos (by norm_num)]
    apply le_antisymm
    · have : Int.log 10 (9.99996 : ℝ) < 1 :=
        (Int.lt_zpow_iff_log_lt (b := 10) (by norm_num) (by norm_num)).1 (by norm_num)
      omega
    · exact (Int.zpow_le_iff_le_log (b := 10) (by norm_num) (by norm_num)).1 (by norm_num)
  have hp : sciParts 4 |(9.99996 : ℝ)| = (10 ^ 4, 1) := by
    unfold sciParts
    simp only [hl]
    rw [nearestEven_of (m := 100000) (by rw [abs_of_pos (by norm_num : (0 : ℝ) < 9.99996)]; norm_num [abs_lt]),
      if_pos (by norm_num)]
    rfl
  unfold sciReal
  rw [if_neg (by norm_num), if_neg (by norm_num), hp]
  decide

theorem defaults_intLimits {K : Type} [Scalar K] : (Params.defaults : Params K).IntLimits :=
  ⟨show IsInt 200 by constructor <;> decide, show IsInt 30 by constructor <;> decide,
    show IsInt 50 by constructor <;> decide⟩

theorem head_text {K : Type} {F : NumText K} (o : Params K) (out : SolverOut K) (h1 : out.eflag = .success)
    (h2 : out.proxIters = 1) (h3 : out.newtonIters = 1) (h4 : o.maxProxIters = 30) (h5 : o.maxNewtonIters = 200)
    (rz rl rv tol : K) : ∃ rest, summaryText F "-1.000000" o out rz rl rv tol =
      ("\nOptimization completed!  Exit code: Success\n" ++
        "Time elapsed: -1.000000 ms (-1.0 indicates timing disabled)\n" ++
        "Proximal iterations: 1 out of 30\nNewton iterations: 1 out of 200\n" ++
        "      |rz|        |rl|        |rv|   Tolerance\n") ++ rest := by
  unfold summaryText
  rw [h1, h2, h3, h4, h5]
  have e : "\nOptimization completed!  Exit code:" ++ ExitFlag.success.words ++
      ("Time elapsed: " ++ "-1.000000" ++ " ms (-1.0 indicates timing disabled)\n") ++
      ("Proximal iterations: " ++ toString (1 : Nat) ++ " out of " ++ toString (30 : Int) ++ "\n") ++
      ("Newton iterations: " ++ toString (1 : Nat) ++ " out of " ++ toString (200 : Int) ++ "\n") ++
      "      |rz|        |rl|        |rv|   Tolerance\n" =
      "\nOptimization completed!  Exit code: Success\n" ++
        "Time elapsed: -1.000000 ms (-1.0 indicates timing disabled)\n" ++
        "Proximal iterations: 1 out of 30\nNewton iterations: 1 out of 200\n" ++
        "      |rz|        |rl|        |rv|   Tolerance\n" := by decide +kernel
  rw [e]
  exact ⟨_, String.append_assoc⟩

/-- C66_final_dense: what the run of C65_not_dense prints, up to the last line. -/
example (junk : DenseJunk Binary64) : ∃ rest,
    output Binary64.numText "-1.000000" ((roundSolver junk).solve offsetProblem offsetGuess).log =
      ("\nOptimization completed!  Exit code: Success\n" ++
        "Time elapsed: -1.000000 ms (-1.0 indicates timing disabled)\n" ++
        "Proximal iterations: 1 out of 30\nNewton iterations: 1 out of 200\n" ++
        "      |rz|        |rl|        |rv|   Tolerance\n") ++ rest := by
  obtain ⟨E0, h, -⟩ := Drift.run junk
  obtain ⟨rz, rl, rv, -, e⟩ := C66_final_dense Binary64.numText_short (time := "-1.000000") (by decide)
    (roundSolver junk) defaults_intLimits rfl _ _ _ h
  rw [e]
  exact head_text _ _ rfl rfl rfl rfl rfl _ _ _ _

/-- C66_parts_dense, C14_parts_dense: the same run; the numbers of the last line are those of the
returned point. -/
example (junk : DenseJunk Binary64) : ∃ out,
    ((roundSolver junk).solve offsetProblem offsetGuess).result = .ok out ∧
    let q := (roundSolver junk).problem offsetProblem
    let w := ((roundSolver junk).solve offsetProblem offsetGuess).x.point (roundSolver junk).nz
      (roundSolver junk).nl (roundSolver junk).nv
    output Binary64.numText "-1.000000" ((roundSolver junk).solve offsetProblem offsetGuess).log =
      summaryText Binary64.numText "-1.000000" (roundSolver junk).options out
        (gradLagrangian q w.z w.l w.v).norm (eqDefect q w.z).norm
        (penalizedMin (roundSolver junk).options.alpha w.y w.v).norm
        (stoppingTol q (roundSolver junk).options) := by
  obtain ⟨E0, h, -⟩ := Drift.run junk
  exact ⟨_, h, C66_parts_dense Binary64.numText_short (by decide) (roundSolver junk)
    defaults_intLimits (show (1 : Int) ≤ 30 by norm_num) rfl _ _ _ h (.inl rfl)⟩

end Fbstab
