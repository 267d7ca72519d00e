import Verif.Props.RoundedMargin
import Verif.Props.RoundingExamples
import Verif.Props.RoundingExamplesMpc

/-!
# Cases that meet the hypotheses of C65
-/

namespace Fbstab
open Binary64

/-- C65_dense: a default solver in binary64, started at the solution. -/
example (junk : DenseJunk Binary64) :
    let xr := ((roundSolver junk).solve roundProblem roundGuess).x.point 1 0 1
    let g := roundOff ((2 : ℝ) ^ (-53 : ℤ)) 1 0 1
    let w := underFlow ((2 : ℝ) ^ (-1075 : ℤ)) 1 0 1
    ∃ z y alpha absTol relTol, rounding.Reads xr.z z ∧ rounding.Reads xr.y y ∧ 0.9 ≤ alpha ∧ absTol ≤ 1.01e-6 ∧
      relTol ≤ 1.01e-12 ∧ roundQP.IsMargin g w z y ∧
      roundQP.RoundedFeasible alpha (roundedTol roundQP absTol relTol g w) g w z := by
  intro xr g w
  obtain ⟨t, t0, rt, et⟩ := round_tol
  obtain ⟨a, ra, ea, ha⟩ := lit_close (r := 1e-6) (by norm_num) (by norm_num)
  obtain ⟨b, rb, eb, hb⟩ := lit_close (r := 1e-12) (by norm_num) (by norm_num)
  obtain ⟨al, ral, eal, hal⟩ := lit_close (r := 0.95) (by norm_num) (by norm_num)
  have e6 : (1e-6 : Binary64) = b64 a := (b64_literal 1 true 6).trans ea
  have e12 : (1e-12 : Binary64) = b64 b := (b64_literal 1 true 12).trans eb
  have e95 : (0.95 : Binary64) = b64 al := (b64_literal 95 true 2).trans eal
  rw [abs_le] at ha hb hal
  norm_num at ha hb hal
  have key := C65_dense rounding (roundSolver junk) one_pos roundProblem roundGuess roundQP
    round_reads (round_small.trans (by norm_num)) al a b (by rw [← b64_toReal ral, ← e95]; rfl) (by linarith [hal.1])
    (by linarith [hal.2]) (by rw [← b64_toReal ra, ← e6]; rfl) (by linarith [ha.1])
    (by rw [← b64_toReal rb, ← e12]; rfl) (by linarith [hb.1])
    ⟨t, (congrArg rounding.toReal et).trans (b64_toReal rt)⟩ _ (round_success junk) rfl rfl
  rcases key with ⟨z, l, v, y, h1, h2, h3, h4, h5, h6, h7⟩ | h
  · exact ⟨z, y, al, a, b, h1, h4, by norm_num; linarith [hal.1], by norm_num; linarith [ha.2],
      by norm_num; linarith [hb.2], h6, h7⟩
  · exact absurd h round_ones

/-- C65_mpc: a default solver in binary64, started at rest. -/
example (junk : MpcJunk Binary64) :
    let xr := ((restSolver junk).solve restProblem restGuess).x.point 4 2 2
    let g := roundOff ((2 : ℝ) ^ (-53 : ℤ)) 4 2 2
    let w := underFlow ((2 : ℝ) ^ (-1075 : ℤ)) 4 2 2
    ∃ z y alpha absTol relTol, rounding.Reads xr.z z ∧ rounding.Reads xr.y y ∧ 0.9 ≤ alpha ∧ absTol ≤ 1.01e-6 ∧
      relTol ≤ 1.01e-12 ∧ restOcp.toQP.IsMargin g w z y ∧
      restOcp.toQP.RoundedFeasible alpha (roundedTol restOcp.toQP absTol relTol g w) g w z := by
  intro xr g w
  obtain ⟨t, t0, rt, et⟩ := rest_tol
  obtain ⟨a, ra, ea, ha⟩ := lit_close (r := 1e-6) (by norm_num) (by norm_num)
  obtain ⟨b, rb, eb, hb⟩ := lit_close (r := 1e-12) (by norm_num) (by norm_num)
  obtain ⟨al, ral, eal, hal⟩ := lit_close (r := 0.95) (by norm_num) (by norm_num)
  have e6 : (1e-6 : Binary64) = b64 a := (b64_literal 1 true 6).trans ea
  have e12 : (1e-12 : Binary64) = b64 b := (b64_literal 1 true 12).trans eb
  have e95 : (0.95 : Binary64) = b64 al := (b64_literal 95 true 2).trans eal
  rw [abs_le] at ha hb hal
  norm_num at ha hb hal
  have key := C65_mpc rounding (restSolver junk) one_pos restProblem restGuess restOcp
    rest_reads (show roundOff ((2 : ℝ) ^ (-53 : ℤ)) 4 2 2 < 1 by unfold roundOff; norm_num) al a b
    (by rw [← b64_toReal ral, ← e95]; rfl) (by linarith [hal.1])
    (by linarith [hal.2]) (by rw [← b64_toReal ra, ← e6]; rfl) (by linarith [ha.1])
    (by rw [← b64_toReal rb, ← e12]; rfl) (by linarith [hb.1])
    ⟨t, (congrArg rounding.toReal et).trans (b64_toReal rt)⟩ _ (rest_success junk) rfl rfl
  rcases key with ⟨z, l, v, y, h1, h2, h3, h4, h5, h6, h7⟩ | h
  · exact ⟨z, y, al, a, b, h1, h4, by norm_num; linarith [hal.1], by norm_num; linarith [ha.2],
      by norm_num; linarith [hb.2], h6, h7⟩
  · exact absurd h rest_ones

end Fbstab
