import Verif.Model.Algorithm

/-!
# The text that is printed

`PrintIterLine`, ..., `PrintFinal` (fbstab_algorithm-impl.h:411-541) format their arguments with `snprintf` into a
buffer of 100 characters and pass it to `OutputStream::Print`, which `StandardOutput` forwards to
`printf("%s", message)` (tools/output_stream.h:20-22, 35).  How a number is written in scientific notation is a
parameter here; for binary64 it is defined in `Verif/Spec/Text.lean`.
-/

namespace Fbstab

/-- What `printf` writes for a number. -/
structure NumText (K : Type) where
  /-- `%.4e` -/
  sci4 : K → String
  /-- `%e` -/
  sci6 : K → String

/-- A field width: `s` preceded by blanks, at least `n` characters. -/
def padLeft (n : Nat) (s : String) : String := String.ofList (List.replicate (n - s.length) ' ') ++ s

/-- `snprintf(buff, size, ...)` of the text `s`: the buffer holds `size - 1` characters and the terminator. -/
def snprintf (size : Nat) (s : String) : String := String.ofList (s.toList.take (size - 1))

/-- The switch of `PrintFinal`, impl:500-522. -/
def ExitFlag.text : ExitFlag → String
  | .success => " Success\n"
  | .divergence => " Divergence\n"
  | .maxIterations => " Iteration limit exceeded\n"
  | .primalInfeasible => " Primal Infeasibility\n"
  | .dualInfeasible => " Dual Infeasibility\n"
  | .primalDualInfeasible => " Primal-Dual Infeasibility\n"

/-- The text described by the format string and the arguments of each call of `snprintf`; `time` is what `%f` writes
for the elapsed time. -/
def Msg.text {K : Type} (F : NumText K) (time : String) : Msg K → String
  /- impl:436-439: "%12s  %12s  %12s  %12s  %12s  %12s  %12s\n" -/
  | .iterHeader => padLeft 12 "prox iter" ++ "  " ++ padLeft 12 "newton iters" ++ "  " ++ padLeft 12 "|rz|" ++ "  " ++
      padLeft 12 "|rl|" ++ "  " ++ padLeft 12 "|rv|" ++ "  " ++ padLeft 12 "Inner res" ++ "  " ++
      padLeft 12 "Inner tol" ++ "\n"
  /- impl:422-424: "%12d  %12d  %12.4e  %12.4e  %12.4e  %12.4e  %12.4e\n" -/
  | .iterLine p n rz rl rv ri itol => padLeft 12 (toString p) ++ "  " ++ padLeft 12 (toString n) ++ "  " ++
      padLeft 12 (F.sci4 rz) ++ "  " ++ padLeft 12 (F.sci4 rl) ++ "  " ++ padLeft 12 (F.sci4 rv) ++ "  " ++
      padLeft 12 (F.sci4 ri) ++ "  " ++ padLeft 12 (F.sci4 itol) ++ "\n"
  /- impl:451-453: "Begin Prox Iter: %d, Total Newton Iters: %d, Residual: %6.4e\n" -/
  | .detailedHeader p n r => "Begin Prox Iter: " ++ toString p ++ ", Total Newton Iters: " ++ toString n ++
      ", Residual: " ++ padLeft 6 (F.sci4 r) ++ "\n"
  /- impl:455-456: "%10s  %10s  %10s  %10s  %10s\n" -/
  | .detailedColumns => padLeft 10 "Iter" ++ "  " ++ padLeft 10 "Step Size" ++ "  " ++ padLeft 10 "|rz|" ++ "  " ++
      padLeft 10 "|rl|" ++ "  " ++ padLeft 10 "|rv|" ++ "\n"
  /- impl:468-469: "%10d  %10e  %10e  %10e  %10e\n" -/
  | .detailedLine i t rz rl rv => padLeft 10 (toString i) ++ "  " ++ padLeft 10 (F.sci6 t) ++ "  " ++
      padLeft 10 (F.sci6 rz) ++ "  " ++ padLeft 10 (F.sci6 rl) ++ "  " ++ padLeft 10 (F.sci6 rv) ++ "\n"
  /- impl:483-486: "Exiting inner loop. Inner residual: %6.4e, Inner tolerance: %6.4e\n" -/
  | .detailedFooter ri tol => "Exiting inner loop. Inner residual: " ++ padLeft 6 (F.sci4 ri) ++
      ", Inner tolerance: " ++ padLeft 6 (F.sci4 tol) ++ "\n"
  /- impl:498 -/
  | .finalBanner => "\nOptimization completed!  Exit code:"
  /- impl:500-522 -/
  | .finalFlag e => e.text
  /- impl:523-524: "Time elapsed: %f ms (-1.0 indicates timing disabled)\n" -/
  | .finalTime => "Time elapsed: " ++ time ++ " ms (-1.0 indicates timing disabled)\n"
  /- impl:526-527: "Proximal iterations: %d out of %d\n" -/
  | .finalProx p limit => "Proximal iterations: " ++ toString p ++ " out of " ++ toString limit ++ "\n"
  /- impl:529-530: "Newton iterations: %d out of %d\n" -/
  | .finalNewton n limit => "Newton iterations: " ++ toString n ++ " out of " ++ toString limit ++ "\n"
  /- impl:532-533: "%10s  %10s  %10s  %10s\n" -/
  | .finalColumns => padLeft 10 "|rz|" ++ "  " ++ padLeft 10 "|rl|" ++ "  " ++ padLeft 10 "|rv|" ++ "  " ++
      padLeft 10 "Tolerance" ++ "\n"
  /- impl:535-536: "%10.4e  %10.4e  %10.4e  %10.4e\n" -/
  | .finalNorms rz rl rv tol => padLeft 10 (F.sci4 rz) ++ "  " ++ padLeft 10 (F.sci4 rl) ++ "  " ++
      padLeft 10 (F.sci4 rv) ++ "  " ++ padLeft 10 (F.sci4 tol) ++ "\n"
  /- impl:538 -/
  | .finalBlank => "\n"

/-- The argument of `os.Print`: the contents of `char buff[100]`. -/
def Msg.printed {K : Type} (F : NumText K) (time : String) (m : Msg K) : String := snprintf 100 (m.text F time)

/-- Everything that appears on the standard output. -/
def output {K : Type} (F : NumText K) (time : String) (log : List (Msg K)) : String :=
  String.join (log.map (Msg.printed F time))

end Fbstab
