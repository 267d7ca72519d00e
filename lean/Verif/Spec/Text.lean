import Verif.Model.Print
import Verif.Spec.Binary64
import Verif.Spec.Outcome

/-!
# Numbers in scientific notation

`%.pe` of the C standard: one digit, the point, `p` digits, `e`, the sign of the exponent and at least two digits.  The
value is rounded to nearest, ties to even.
-/

namespace Fbstab

/-- The digits of a decimal number, a point after the first. -/
def pointed (digits : List Char) : List Char := digits.take 1 ++ '.' :: digits.drop 1

/-- `e+05`, `e-12`, `e+308` -/
def exponentText (e : ℤ) : List Char :=
  'e' :: (if e < 0 then '-' else '+') ::
    ((if e.natAbs < 10 then ['0'] else []) ++ Nat.toDigits 10 e.natAbs)

/-- The mantissa (an integer with `p + 1` digits) and the exponent of `r > 0`. -/
noncomputable def sciParts (p : Nat) (r : ℝ) : ℕ × ℤ :=
  let e := Int.log 10 r
  let m := nearestEven (r / (10 : ℝ) ^ (e - p))
  if m = 10 ^ (p + 1) then (10 ^ p, e + 1) else (m.toNat, e)

/-- `%.pe` of a real number. -/
noncomputable def sciReal (p : Nat) (r : ℝ) : String := String.ofList <|
  if r = 0 then pointed (List.replicate (p + 1) '0') ++ exponentText 0
  else (if r < 0 then ['-'] else []) ++ pointed (Nat.toDigits 10 (sciParts p |r|).1) ++
    exponentText (sciParts p |r|).2

open Classical in
/-- `%.pe` of a `double`. -/
noncomputable def sciText (p : Nat) (a : Binary64) : String :=
  match a.toReal with
  | some r => sciReal p r
  | none => if a.x = .nan then "nan" else if a.x = .val ⊤ then "inf" else "-inf"

/-- `printf` for `double`. -/
noncomputable def Binary64.numText : NumText Binary64 := ⟨sciText 4, sciText 6⟩

/-- A value of type `int`. -/
def IsInt (n : Int) : Prop := -2 ^ 31 ≤ n ∧ n < 2 ^ 31

/-- The limits on iterations are of type `int`. -/
structure Params.IntLimits {K : Type} (o : Params K) : Prop where
  newton : IsInt o.maxNewtonIters
  prox : IsInt o.maxProxIters
  inner : IsInt o.maxInnerIters

/-- The names of the exit flags in the summary. -/
def ExitFlag.words : ExitFlag → String
  | .success => " Success\n"
  | .divergence => " Divergence\n"
  | .maxIterations => " Iteration limit exceeded\n"
  | .primalInfeasible => " Primal Infeasibility\n"
  | .dualInfeasible => " Dual Infeasibility\n"
  | .primalDualInfeasible => " Primal-Dual Infeasibility\n"

/-- The summary printed by a run that returns `out`, the parts of whose residual have norms `rz`, `rl`, `rv`. -/
def summaryText {K : Type} (F : NumText K) (time : String) (o : Params K) (out : SolverOut K) (rz rl rv tol : K) :
    String :=
  "\nOptimization completed!  Exit code:" ++ out.eflag.words ++
  ("Time elapsed: " ++ time ++ " ms (-1.0 indicates timing disabled)\n") ++
  ("Proximal iterations: " ++ toString out.proxIters ++ " out of " ++ toString o.maxProxIters ++ "\n") ++
  ("Newton iterations: " ++ toString out.newtonIters ++ " out of " ++ toString o.maxNewtonIters ++ "\n") ++
  "      |rz|        |rl|        |rv|   Tolerance\n" ++
  (padLeft 10 (F.sci4 rz) ++ "  " ++ padLeft 10 (F.sci4 rl) ++ "  " ++ padLeft 10 (F.sci4 rv) ++ "  " ++
    padLeft 10 (F.sci4 tol) ++ "\n") ++ "\n"

end Fbstab
